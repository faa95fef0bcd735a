import Verif.Shell.Model
import Verif.Tri.AttrProps
import Verif.Mesh.Props
import Verif.Lists.Props

/-!
# Mesh data of triangle shells (C104)
-/

namespace Volmdlr.Shells

open Triangles

section
variable {K : Type*} [Field K] [LinearOrder K] [FloorRing K]

/-- The coordinates read in a mesh: the rows of the three vertices of each face (specification). -/
def readFaces (v : List (List K)) (f : List (ℕ × ℕ × ℕ)) : List (Option (List K) × Option (List K) × Option (List K)) :=
  f.map fun t => (v[t.1]?, v[t.2.1]?, v[t.2.2]?)

lemma reshape_flat {α β : Type*} (g : α → β × β × β) (l : List α) :
    reshape3 (l.flatMap fun t => [(g t).1, (g t).2.1, (g t).2.2]) = some (l.map g) := by
  induction l with
  | nil => rfl
  | cons t l ih =>
    rw [List.flatMap_cons]
    change reshape3 ((g t).1 :: (g t).2.1 :: (g t).2.2 :: l.flatMap fun t => [(g t).1, (g t).2.1, (g t).2.2]) = _
    rw [reshape3, ih]
    rfl

/-- The rows that `to_mesh_data` writes for a point. -/
def writtenRow (nDecimals : Option ℕ) (p : V3 K) : List K :=
  match nDecimals with
  | none => row p
  | some n => (row p).map (npRound n)

lemma vertices_eq (nDecimals : Option ℕ) (tris : List (V3 K × V3 K × V3 K)) :
    roundRows nDecimals (tris.flatMap fun t => [row t.1, row t.2.1, row t.2.2]) =
    tris.flatMap fun t => [writtenRow nDecimals t.1, writtenRow nDecimals t.2.1, writtenRow nDecimals t.2.2] := by
  cases nDecimals with
  | none => rfl
  | some n =>
    unfold roundRows
    dsimp only
    rw [List.map_flatMap]
    rfl

/-- `to_mesh_data`, with or without rounding: the vertices are distinct and sorted, they are exactly the points written, and the faces, read
in the vertices, give back the rows of the triangles in order. -/
lemma meshData_spec (nDecimals : Option ℕ) (tris : List (V3 K × V3 K × V3 K)) :
    ∃ v f, toMeshData nDecimals tris = some (v, f) ∧ v.Pairwise (· < ·) ∧
      (∀ r, r ∈ v ↔ ∃ t ∈ tris, r = writtenRow nDecimals t.1 ∨ r = writtenRow nDecimals t.2.1 ∨ r = writtenRow nDecimals t.2.2) ∧
      readFaces v f = tris.map fun t => (some (writtenRow nDecimals t.1), some (writtenRow nDecimals t.2.1), some (writtenRow nDecimals t.2.2)) := by
  unfold toMeshData
  dsimp only
  rw [vertices_eq]
  obtain ⟨u, hu⟩ : ∃ u, u = npUnique (tris.flatMap fun t => [writtenRow nDecimals t.1, writtenRow nDecimals t.2.1, writtenRow nDecimals t.2.2]) := ⟨_, rfl⟩
  rw [← hu]
  have hmem : ∀ r, r ∈ u ↔ ∃ t ∈ tris, r = writtenRow nDecimals t.1 ∨ r = writtenRow nDecimals t.2.1 ∨ r = writtenRow nDecimals t.2.2 := by
    intro r
    rw [hu, mem_npUnique, List.mem_flatMap]
    simp
  have e : (tris.flatMap fun t => [writtenRow nDecimals t.1, writtenRow nDecimals t.2.1, writtenRow nDecimals t.2.2]).map (fun r => u.idxOf r) =
      tris.flatMap fun t => [((fun t : V3 K × V3 K × V3 K => (u.idxOf (writtenRow nDecimals t.1), u.idxOf (writtenRow nDecimals t.2.1), u.idxOf (writtenRow nDecimals t.2.2))) t).1,
        ((fun t : V3 K × V3 K × V3 K => (u.idxOf (writtenRow nDecimals t.1), u.idxOf (writtenRow nDecimals t.2.1), u.idxOf (writtenRow nDecimals t.2.2))) t).2.1,
        ((fun t : V3 K × V3 K × V3 K => (u.idxOf (writtenRow nDecimals t.1), u.idxOf (writtenRow nDecimals t.2.1), u.idxOf (writtenRow nDecimals t.2.2))) t).2.2] := by
    rw [List.map_flatMap]; rfl
  rw [e, reshape_flat]
  refine ⟨u, _, rfl, by rw [hu]; exact npUnique_sorted _, hmem, ?_⟩
  rw [List.take_of_length_le (by simp)]
  unfold readFaces
  rw [List.map_map]
  apply List.map_congr_left
  intro t ht
  have get : ∀ r, r ∈ u → u[u.idxOf r]? = some r := by
    intro r hr
    have h := List.idxOf_lt_length_of_mem hr
    rw [List.getElem?_eq_getElem h, List.getElem_idxOf]
  simp only [Function.comp]
  rw [get _ ((hmem _).2 ⟨t, ht, Or.inl rfl⟩), get _ ((hmem _).2 ⟨t, ht, Or.inr (Or.inl rfl)⟩), get _ ((hmem _).2 ⟨t, ht, Or.inr (Or.inr rfl)⟩)]

/-- C104: without rounding, the vertices of the mesh data are the distinct points of the triangles, each once and in order, and the faces read in them
are the triangles in their order. -/
theorem C104_exact (tris : List (V3 K × V3 K × V3 K)) :
    ∃ v f, toMeshData none tris = some (v, f) ∧ v.Pairwise (· < ·) ∧
      (∀ r, r ∈ v ↔ ∃ t ∈ tris, r = [t.1.x, t.1.y, t.1.z] ∨ r = [t.2.1.x, t.2.1.y, t.2.1.z] ∨ r = [t.2.2.x, t.2.2.y, t.2.2.z]) ∧
      readFaces v f = tris.map fun t => (some [t.1.x, t.1.y, t.1.z], some [t.2.1.x, t.2.1.y, t.2.1.z], some [t.2.2.x, t.2.2.y, t.2.2.z]) :=
  meshData_spec none tris

end

/-- `q` is `p` with each coordinate rounded to the nearest multiple of `10 ^ (-n)` (specification). -/
def RoundedTo {K : Type*} [Field K] [LinearOrder K] (n : ℕ) (p : V3 K) (r : List K) : Prop :=
  ∃ x y z : ℤ, r = [(x : K) / 10 ^ n, (y : K) / 10 ^ n, (z : K) / 10 ^ n] ∧
    |p.x - x / 10 ^ n| ≤ 1 / 2 / 10 ^ n ∧ |p.y - y / 10 ^ n| ≤ 1 / 2 / 10 ^ n ∧ |p.z - z / 10 ^ n| ≤ 1 / 2 / 10 ^ n

lemma npRound_spec {K : Type*} [Field K] [LinearOrder K] [IsStrictOrderedRing K] [FloorRing K] (n : ℕ) (x : K) :
    |x - (pyRound (x * 10 ^ n) : K) / 10 ^ n| ≤ 1 / 2 / 10 ^ n := by
  have h := (pyRound_spec (x * 10 ^ n)).1
  have hp : (0 : K) < 10 ^ n := by positivity
  have e : x - (pyRound (x * 10 ^ n) : K) / 10 ^ n = (x * 10 ^ n - pyRound (x * 10 ^ n)) / 10 ^ n := by field_simp
  rw [e, abs_div, abs_of_pos hp]
  gcongr

lemma written_rounded {K : Type*} [Field K] [LinearOrder K] [IsStrictOrderedRing K] [FloorRing K] (n : ℕ) (p : V3 K) :
    RoundedTo n p (writtenRow (some n) p) :=
  ⟨_, _, _, rfl, npRound_spec n p.x, npRound_spec n p.y, npRound_spec n p.z⟩

/-- C104: with rounding, the vertices are distinct multiples of `10 ^ (-n)`, the faces are as many as the triangles, in order, and each of their
coordinates is within half of `10 ^ (-n)` of that of the triangle. -/
theorem C104_rounded {K : Type*} [Field K] [LinearOrder K] [IsStrictOrderedRing K] [FloorRing K] (n : ℕ) (tris : List (V3 K × V3 K × V3 K)) :
    ∃ v f, toMeshData (some n) tris = some (v, f) ∧ v.Nodup ∧ f.length = tris.length ∧
      ∀ (i : ℕ) (t : V3 K × V3 K × V3 K), tris[i]? = some t → ∃ a b c r1 r2 r3, f[i]? = some (a, b, c) ∧ v[a]? = some r1 ∧ v[b]? = some r2 ∧ v[c]? = some r3 ∧
        RoundedTo n t.1 r1 ∧ RoundedTo n t.2.1 r2 ∧ RoundedTo n t.2.2 r3 := by
  obtain ⟨v, f, h1, h2, -, h4⟩ := meshData_spec (some n) tris
  have hl := congrArg List.length h4
  simp only [readFaces, List.length_map] at hl
  refine ⟨v, f, h1, h2.imp (fun h => ne_of_lt h), hl, ?_⟩
  intro i t ht
  have hi := congrArg (fun l => l[i]?) h4
  simp only [readFaces, List.getElem?_map, ht, Option.map_some] at hi
  cases hf : f[i]? with
  | none => rw [hf] at hi; simp at hi
  | some w =>
    obtain ⟨a, b, c⟩ := w
    rw [hf] at hi
    simp only [Option.map_some, Option.some.injEq, Prod.mk.injEq] at hi
    exact ⟨a, b, c, _, _, _, rfl, hi.1, hi.2.1, hi.2.2, written_rounded n _, written_rounded n _, written_rounded n _⟩

/-! ## Reading back -/

lemma mapM_ok_map {α β : Type*} (f : α → Except PyErr β) (g : α → β) (l : List α) (h : ∀ a ∈ l, f a = .ok (g a)) : l.mapM f = .ok (l.map g) := by
  induction l with
  | nil => rfl
  | cons a l ih =>
    rw [List.mapM_cons, h a List.mem_cons_self, ih (fun b hb => h b (List.mem_cons_of_mem _ hb))]
    rfl

/-- The point of a row of three coordinates. -/
def pointOf (r : List ℝ) : V3 ℝ := ⟨r.getD 0 0, r.getD 1 0, r.getD 2 0⟩

/-- C104: `from_mesh_data` builds, in order, the triangles of the faces which are not flat; the others are skipped. -/
theorem C104_from_mesh_data (points : List (V3 ℝ)) (faces : List (ℕ × ℕ × ℕ))
    (h : ∀ f ∈ faces, f.1 < points.length ∧ f.2.1 < points.length ∧ f.2.2 < points.length) :
    ∃ l, fromMeshData (points.map fun p => [p.x, p.y, p.z]) faces = .ok l ∧
      l.map Triangle.points = (faces.map fun f => (points.getD f.1 ⟨0, 0, 0⟩, points.getD f.2.1 ⟨0, 0, 0⟩, points.getD f.2.2 ⟨0, 0, 0⟩)).filter
        fun t => decide (area t ≠ 0) := by
  classical
  have hp : (points.map fun p => [p.x, p.y, p.z]).mapM rowPoint = Except.ok points := by
    rw [mapM_ok_map rowPoint pointOf]
    · rw [List.map_map]
      congr 1
      conv_rhs => rw [← List.map_id points]
      apply List.map_congr_left
      intro p _; rfl
    · intro r hr
      obtain ⟨p, -, rfl⟩ := List.mem_map.1 hr
      rfl
  have hf : faces.mapM (faceTriangle points) =
      Except.ok (faces.map fun f => Triangle.make (points.getD f.1 ⟨0, 0, 0⟩) (points.getD f.2.1 ⟨0, 0, 0⟩) (points.getD f.2.2 ⟨0, 0, 0⟩)) := by
    apply mapM_ok_map
    intro f hf
    obtain ⟨a, b, c⟩ := h f hf
    unfold faceTriangle
    rw [List.getElem?_eq_getElem a, List.getElem?_eq_getElem b, List.getElem?_eq_getElem c]
    dsimp only
    rw [List.getD_eq_getElem _ _ a, List.getD_eq_getElem _ _ b, List.getD_eq_getElem _ _ c]
  unfold fromMeshData
  rw [hp]
  simp only [Except.bind]
  rw [hf]
  refine ⟨_, rfl, ?_⟩
  clear hf h
  induction faces with
  | nil => rfl
  | cons f faces ih =>
    dsimp only at ih ⊢
    rw [List.map_cons, List.map_cons, List.filter_cons]
    by_cases h0 : area (points.getD f.1 ⟨0, 0, 0⟩, points.getD f.2.1 ⟨0, 0, 0⟩, points.getD f.2.2 ⟨0, 0, 0⟩) = 0
    · rw [(make_iff _ _ _ _ _ _).1 h0]
      rw [List.filterMap_cons_none rfl, ih, if_neg (by simpa using h0)]
    · rw [(make_iff _ _ _ _ _ _).2 h0]
      rw [List.filterMap_cons_some (f := id) rfl, List.map_cons, ih, if_pos (by simpa using h0)]

lemma rowPoint_row (p : V3 ℝ) : rowPoint (row p) = .ok p := rfl

/-- Reading exact mesh data back. -/
lemma read_back (tris : List Tri) (h : ∀ t ∈ tris, area t ≠ 0) :
    ∃ v f, toMeshData none tris = some (v, f) ∧ fromMeshData v f = .ok (tris.map fun t => ⟨t, 1, none, ""⟩) := by
  obtain ⟨v, f, h1, -, h3, h4⟩ := meshData_spec none tris
  refine ⟨v, f, h1, ?_⟩
  have hv : v.mapM rowPoint = Except.ok (v.map pointOf) := by
    apply mapM_ok_map
    intro r hr
    obtain ⟨t, -, rfl | rfl | rfl⟩ := (h3 r).1 hr <;> rfl
  unfold fromMeshData
  rw [hv]
  simp only [Except.bind]
  have hlen := congrArg List.length h4
  simp only [readFaces, List.length_map] at hlen
  have hf : ∀ (fs : List (ℕ × ℕ × ℕ)) (ts : List Tri), (∀ t ∈ ts, area t ≠ 0) →
      (readFaces v fs = ts.map fun t => (some (writtenRow none t.1), some (writtenRow none t.2.1), some (writtenRow none t.2.2))) →
      fs.mapM (faceTriangle (v.map pointOf)) = .ok (ts.map fun t => some (⟨t, 1, none, ""⟩ : Triangle)) := by
    intro fs
    induction fs with
    | nil =>
      intro ts _ e
      cases ts with
      | nil => rfl
      | cons t ts => simp [readFaces] at e
    | cons g fs ih =>
      intro ts ht e
      cases ts with
      | nil => simp [readFaces] at e
      | cons t ts =>
        simp only [readFaces, List.map_cons, List.cons.injEq, Prod.mk.injEq] at e
        obtain ⟨⟨e1, e2, e3⟩, e'⟩ := e
        have hg : faceTriangle (v.map pointOf) g = .ok (some ⟨t, 1, none, ""⟩) := by
          unfold faceTriangle
          rw [List.getElem?_map, List.getElem?_map, List.getElem?_map, e1, e2, e3]
          simp only [Option.map_some]
          exact congrArg _ ((make_iff _ _ _ _ _ _).2 (ht t List.mem_cons_self))
        rw [List.mapM_cons, hg, ih ts (fun u hu => ht u (List.mem_cons_of_mem _ hu)) e']
        rfl
  rw [hf f tris h h4]
  simp only [Except.map]
  congr 1
  clear h h1 h3 h4 hv hlen hf
  induction tris with
  | nil => rfl
  | cons t l ih => rw [List.map_cons, List.map_cons, List.filterMap_cons_some (f := id) rfl, ih]

/-- C104: writing a triangle shell to a dictionary and reading it back gives the same shell: faces in order, color, transparency and name. -/
theorem C104_dict_round_trip (s : Shell Triangle) (h : ∀ f ∈ s.faces, ∃ a b c, Triangle.make a b c = some f) :
    ∃ d, toDict s = some d ∧ dictToObject d = .ok s := by
  have hf : ∀ f ∈ s.faces, f = ⟨f.points, 1, none, ""⟩ ∧ area f.points ≠ 0 := by
    intro f hf
    obtain ⟨a, b, c, e⟩ := h f hf
    by_cases h0 : area (a, b, c) = 0
    · rw [(make_iff a b c _ _ _).1 h0] at e; cases e
    · rw [(make_iff a b c _ _ _).2 h0] at e
      obtain rfl := Option.some.inj e
      exact ⟨rfl, h0⟩
  obtain ⟨v, f, h1, h2⟩ := read_back (s.faces.map Triangle.points) (by
    intro t ht
    obtain ⟨g, hg, rfl⟩ := List.mem_map.1 ht
    exact (hf g hg).2)
  refine ⟨⟨v, f, s.alpha, s.color, s.name⟩, ?_, ?_⟩
  · unfold toDict; rw [h1]; rfl
  · unfold dictToObject
    dsimp only
    rw [h2]
    simp only [Except.map]
    congr 1
    obtain ⟨faces, color, alpha, name⟩ := s
    simp only [Shell.make, List.map_map, Shell.mk.injEq, and_true]
    conv_rhs => rw [← List.map_id faces]
    apply List.map_congr_left
    intro g hg
    exact (hf g hg).1.symm

/-- Full statement: a shell written with rounded vertices, as for `to_trimesh`, and read back has as many triangles. -/
def C104_rounded_full_statement : Prop :=
  ∀ (tris : List Tri), (∀ t ∈ tris, area t ≠ 0) → ∀ v f, toMeshData (some 9) tris = some (v, f) → ∀ l, fromMeshData v f = .ok l → l.length = tris.length

/-- C104: a triangle with sides of `1e-10`, which is not flat, is lost: its points are rounded to one. -/
theorem C104_rounded_counterexample : ¬C104_rounded_full_statement := by
  intro hall
  obtain ⟨t, ht⟩ : ∃ t : Tri, t = (⟨0, 0, 0⟩, ⟨1 / 10 ^ 10, 0, 0⟩, ⟨0, 1 / 10 ^ 10, 0⟩) := ⟨_, rfl⟩
  have harea : area t ≠ 0 := by
    rw [C99_area, ht]
    have : V3.cross ((⟨1 / 10 ^ 10, 0, 0⟩ : V3 ℝ) - ⟨0, 0, 0⟩) ((⟨0, 1 / 10 ^ 10, 0⟩ : V3 ℝ) - ⟨0, 0, 0⟩) = ⟨0, 0, 1 / 10 ^ 20⟩ := by
      ext <;> simp [V3.cross]; norm_num
    dsimp only
    rw [this]
    intro h
    have h0 : V3.norm (⟨0, 0, 1 / 10 ^ 20⟩ : V3 ℝ) = 0 := by linarith
    rw [V3.norm_eq_zero_iff] at h0
    have := congrArg V3.z h0
    norm_num at this
  obtain ⟨v, f, h1, -, h3, h4⟩ := meshData_spec (some 9) [t]
  have r0 : npRound 9 (0 : ℝ) = 0 := by
    unfold npRound
    rw [pyRound_unique _ 0 (by norm_num)]; simp
  have r1 : npRound 9 (1 / 10 ^ 10 : ℝ) = 0 := by
    unfold npRound
    rw [pyRound_unique _ 0 (by norm_num [abs_of_pos])]; simp
  have w : writtenRow (some 9) t.1 = [0, 0, 0] ∧ writtenRow (some 9) t.2.1 = [0, 0, 0] ∧ writtenRow (some 9) t.2.2 = [0, 0, 0] := by
    rw [ht]
    refine ⟨?_, ?_, ?_⟩ <;> simp only [writtenRow, row, List.map_cons, List.map_nil, r0, r1]
  rw [List.map_cons, List.map_nil, w.1, w.2.1, w.2.2] at h4
  have hv : v.mapM rowPoint = Except.ok (v.map pointOf) := by
    apply mapM_ok_map
    intro r hr
    obtain ⟨u, hu, hr⟩ := (h3 r).1 hr
    obtain rfl := List.mem_singleton.1 hu
    rw [w.1, w.2.1, w.2.2] at hr
    rcases hr with rfl | rfl | rfl <;> rfl
  have hlen := congrArg List.length h4
  simp only [readFaces, List.length_map, List.length_cons, List.length_nil] at hlen
  obtain ⟨g, rfl⟩ := List.length_eq_one_iff.1 hlen
  simp only [readFaces, List.map_cons, List.map_nil, List.cons.injEq, Prod.mk.injEq, and_true] at h4
  obtain ⟨e1, e2, e3⟩ := h4
  have hz : area ((⟨0, 0, 0⟩ : V3 ℝ), (⟨0, 0, 0⟩ : V3 ℝ), (⟨0, 0, 0⟩ : V3 ℝ)) = 0 := by
    rw [C99_area]
    simp [V3.cross, V3.norm]
  have hb : fromMeshData v [g] = .ok [] := by
    unfold fromMeshData
    rw [hv]
    simp only [Except.bind]
    have hg : faceTriangle (v.map pointOf) g = .ok none := by
      unfold faceTriangle
      rw [List.getElem?_map, List.getElem?_map, List.getElem?_map, e1, e2, e3]
      simp only [Option.map_some]
      exact congrArg _ ((make_iff _ _ _ _ _ _).1 hz)
    rw [List.mapM_cons, hg]
    rfl
  have := hall [t] (by simpa using harea) v [g] h1 [] hb
  simp at this

/-- Non-vacuity of `C104_dict_round_trip` and of `C104_from_mesh_data`. -/
example : ∃ s : Shell Triangle, s.faces ≠ [] ∧ ∀ f ∈ s.faces, ∃ a b c, Triangle.make a b c = some f := by
  have h0 : area (egyptian.1, egyptian.2.1, egyptian.2.2) ≠ 0 := by
    change area egyptian ≠ 0
    rw [egyptian_area]; norm_num
  refine ⟨⟨[⟨egyptian, 1, none, ""⟩], some (1, 0, 0), 1 / 2, "roof"⟩, by simp, ?_⟩
  intro f hf
  obtain rfl := List.mem_singleton.1 hf
  exact ⟨_, _, _, (make_iff _ _ _ _ _ _).2 h0⟩

example : ∀ f ∈ [(0, 1, 2), (2, 1, 0)], f.1 < [egyptian.1, egyptian.2.1, egyptian.2.2].length ∧ f.2.1 < [egyptian.1, egyptian.2.1, egyptian.2.2].length ∧
    f.2.2 < [egyptian.1, egyptian.2.1, egyptian.2.2].length := by simp

end Volmdlr.Shells
