import Verif.Geo.DrawProps

/-!
# C127, C128: `.geo` files of faces and of 2D surfaces, mesh fields
-/

set_option linter.unusedSectionVars false
namespace Volmdlr.Geo
variable {K : Type*} [Field K] [LinearOrder K] [IsStrictOrderedRing K]

/-! ### Specification -/

/-- The sides of a polygon: each point with the next one, the last with the first. -/
def sides : List (V3 K) → List (Edge K)
  | [] => []
  | p :: l => List.zipWith Edge.seg (p :: l) (l ++ [p])

/-- The loop `t` describes the contour.  For a circle, the loop is made of two circles between opposite points. -/
def OutlineDrawn (S : List (Stmt K)) (t : ℕ) : Contour K → Prop
  | .polygon ps => ContourDrawn S t (sides ps)
  | .circle o r => ∃ i j a c b : ℕ, .loop t [(i : ℤ), (j : ℤ)] ∈ S ∧ .circle i a c b ∈ S ∧ .circle j b c a ∈ S ∧ .point a ⟨o.x - r, o.y, 0⟩ ∈ S ∧
      .point c ⟨o.x, o.y, 0⟩ ∈ S ∧ .point b ⟨o.x + r, o.y, 0⟩ ∈ S

/-- A polygon of at least two points, where no point is the same as the next one. -/
def Contour.Regular (same : V3 K → V3 K → Bool) : Contour K → Prop
  | .polygon ps => 2 ≤ ps.length ∧ ∀ e ∈ sides ps, ∀ p q, e = .seg p q → same p q = false
  | .circle _ _ => True

/-- The file describes one surface with these outlines. -/
def DescribesSurface (S : List (Stmt K)) (contours : List (Contour K)) : Prop :=
  ∃ ls, .surface true 1 ls ∈ S ∧ List.Forall₂ (OutlineDrawn S) ls contours

/-! ### Proof -/

theorem OutlineDrawn.mono {S T : List (Stmt K)} (h : S ⊆ T) {t : ℕ} {x : Contour K} (hd : OutlineDrawn S t x) : OutlineDrawn T t x := by
  cases x with
  | polygon ps => exact ContourDrawn.mono h hd
  | circle o r =>
    obtain ⟨i, j, a, c, b, h1, h2, h3, h4, h5, h6⟩ := hd
    exact ⟨i, j, a, c, b, h h1, h h2, h h3, h h4, h h5, h h6⟩

theorem sides_length (ps : List (V3 K)) : (sides ps).length = ps.length := by
  cases ps <;> simp [sides]

theorem zip_sides {ps : List (V3 K)} : sides ps = (ps.zip (ps.tail ++ ps.take 1)).map fun pq : V3 K × V3 K => Edge.seg pq.1 pq.2 := by
  cases ps with
  | nil => rfl
  | cons p l => simp [sides, List.zip, List.map_zipWith]

theorem segmentCount_le (same : V3 K → V3 K → Bool) (ps : List (V3 K)) : segmentCount same ps ≤ ps.length := by
  unfold segmentCount
  split
  · refine (List.length_filter_le _ _).trans ?_
    rw [List.length_zip]
    exact min_le_left _ _
  · exact Nat.zero_le _

theorem segmentCount_eq {same : V3 K → V3 K → Bool} {ps : List (V3 K)} (h : (Contour.polygon ps).Regular same) : segmentCount same ps = ps.length := by
  obtain ⟨h2, hs⟩ := h
  unfold segmentCount
  rw [if_pos (by omega), List.filter_eq_self.2]
  · cases ps with
    | nil => rfl
    | cons p l => simp
  · intro pq hpq
    rw [hs (.seg pq.1 pq.2) (by rw [zip_sides]; exact List.mem_map.2 ⟨pq, hpq, rfl⟩) _ _ rfl]
    rfl

theorem side_get (ps : List (V3 K)) (i : ℕ) (hi : i < ps.length) (hi' : i < (sides ps).length) :
    (sides ps)[i] = .seg ps[i] (if h : i + 1 < ps.length then ps[i + 1] else ps[0]) := by
  cases ps with
  | nil => simp at hi
  | cons p l =>
    simp only [sides, List.getElem_zipWith]
    congr 1
    split
    · next h =>
      rw [List.getElem_append_left (by simpa using h)]
      rfl
    · next h =>
      rw [List.getElem_append_right (by simpa using h)]
      simp

theorem good_lines (start : ℕ) (a b : ℕ → ℕ) (S : List (Stmt K)) (B : Bounds) (h : Good S B) (hB : B.curve = start) :
    ∀ m, (∀ i < m, ((Kind.point, a i) : Kind × ℕ) ∈ S.map key ∧ ((Kind.point, b i) : Kind × ℕ) ∈ S.map key) →
    Good (S ++ (List.range m).map fun i : ℕ => Stmt.line (start + i + 1) (a i) (b i)) {B with curve := start + m}
  | 0, _ => by
    subst hB
    simpa using h
  | m + 1, hp => by
    have ih := good_lines start a b S B h hB m fun i hi => hp i (by omega)
    rw [List.range_succ, List.map_append, ← List.append_assoc]
    refine ih.add ?_ ?_ ?_ ?_
    · change start + m < start + m + 1; omega
    · intro r hr
      obtain ⟨h1, h2⟩ := hp m (by omega)
      simp only [refs, List.mem_cons, List.not_mem_nil, or_false] at hr
      rcases hr with rfl | rfl
      · exact mem_keys_append h1 _
      · exact mem_keys_append h2 _
    · intro x; cases x <;> simp [Bounds.get]
    · change start + m + 1 ≤ start + (m + 1); omega

/-- The variables agree with the lines already written. -/
structure Fits (S : List (Stmt K)) (c : Counters) : Prop where
  good : Good S ⟨c.point, c.line, c.index, 0, 0, 0⟩
  loop : c.loop = c.index + 1

theorem fits_polygon {same : V3 K → V3 K → Bool} {S : List (Stmt K)} {c : Counters} {ps : List (V3 K)} (h : Fits S c) (hr : (Contour.polygon ps).Regular same) :
    Fits (S ++ polygonLines same c ps) (afterPolygon same c ps) ∧ OutlineDrawn (S ++ polygonLines same c ps) c.loop (.polygon ps) := by
  have hm := segmentCount_eq hr
  have h2 := hr.1
  have hfun : (fun pi : V3 K × ℕ => Stmt.point (c.point + pi.2 + 1) pi.1) = fun pi : V3 K × ℕ => Stmt.point (pi.2 + c.point + 1) pi.1 := by
    funext pi; rw [Nat.add_comm c.point]
  have hlines : polygonLines same c ps = ps.zipIdx.map (fun pi : V3 K × ℕ => Stmt.point (pi.2 + c.point + 1) pi.1) ++
      (List.range ps.length).map (fun i : ℕ => Stmt.line (c.line + i + 1) (c.point + i + 1) (if i ≠ ps.length - 1 then c.point + i + 2 else c.point + 1)) ++
      [.loop (c.index + 1) ((List.range ps.length).map fun i : ℕ => ((c.line + i + 1 : ℕ) : ℤ))] := by
    unfold polygonLines
    rw [hm, hfun]
  have g1 := good_points c.point ps 0 S _ h.good rfl
  have hdef : ∀ (i : ℕ) (p : V3 K), ps[i]? = some p → Stmt.point (c.point + i + 1) p ∈ S ++ ps.zipIdx.map (fun pi : V3 K × ℕ => Stmt.point (pi.2 + c.point + 1) pi.1) := by
    intro i p hp
    have := points_defined c.point ps S i p hp
    rwa [Nat.add_comm i] at this
  have hk : ∀ i < ps.length, ((Kind.point, c.point + i + 1) : Kind × ℕ) ∈
      (S ++ ps.zipIdx.map (fun pi : V3 K × ℕ => Stmt.point (pi.2 + c.point + 1) pi.1)).map key :=
    fun i hi => List.mem_map.2 ⟨_, hdef i _ (List.getElem?_eq_getElem hi), rfl⟩
  have g2 := good_lines c.line (fun i => c.point + i + 1) (fun i => if i ≠ ps.length - 1 then c.point + i + 2 else c.point + 1) _ _ g1 rfl ps.length (by
    intro i hi
    refine ⟨hk i hi, ?_⟩
    split
    · have := hk (i + 1) (by omega)
      rwa [show c.point + (i + 1) + 1 = c.point + i + 2 by omega] at this
    · exact hk 0 (by omega))
  have hline : ∀ i < ps.length, Stmt.line (c.line + i + 1) (c.point + i + 1) (if i ≠ ps.length - 1 then c.point + i + 2 else c.point + 1) ∈
      (S ++ ps.zipIdx.map (fun pi : V3 K × ℕ => Stmt.point (pi.2 + c.point + 1) pi.1)) ++
      (List.range ps.length).map (fun i : ℕ => Stmt.line (c.line + i + 1) (c.point + i + 1) (if i ≠ ps.length - 1 then c.point + i + 2 else c.point + 1)) :=
    fun i hi => List.mem_append_right _ (List.mem_map.2 ⟨i, List.mem_range.2 hi, rfl⟩)
  have hS : S ++ polygonLines same c ps = ((S ++ ps.zipIdx.map (fun pi : V3 K × ℕ => Stmt.point (pi.2 + c.point + 1) pi.1)) ++
      (List.range ps.length).map (fun i : ℕ => Stmt.line (c.line + i + 1) (c.point + i + 1) (if i ≠ ps.length - 1 then c.point + i + 2 else c.point + 1))) ++
      [.loop (c.index + 1) ((List.range ps.length).map fun i : ℕ => ((c.line + i + 1 : ℕ) : ℤ))] := by
    rw [hlines]; simp only [List.append_assoc]
  rw [hS]
  constructor
  · refine ⟨?_, by simp [afterPolygon, h.loop]⟩
    refine g2.add ?_ ?_ ?_ ?_
    · change c.index < c.index + 1; omega
    · intro r hr'
      obtain ⟨t, ht, rfl⟩ := List.mem_map.1 hr'
      obtain ⟨i, hi, rfl⟩ := List.mem_map.1 ht
      exact List.mem_map.2 ⟨_, hline i (List.mem_range.1 hi), by rw [Int.natAbs_natCast]; rfl⟩
    · intro x
      cases x <;> simp [Bounds.get, afterPolygon, hm] <;> omega
    · exact le_rfl
  · refine ⟨(List.range ps.length).map fun i : ℕ => ((c.line + i + 1 : ℕ) : ℤ), by rw [h.loop]; simp, ?_⟩
    rw [List.forall₂_iff_get]
    refine ⟨by simp [sides_length], fun i h1 h3 => ?_⟩
    have hi : i < ps.length := by simpa using h1
    rw [List.get_eq_getElem, List.get_eq_getElem, List.getElem_map, List.getElem_range, side_get ps i hi]
    refine ⟨_, List.mem_append_left _ (hline i hi), by rw [Int.natAbs_natCast]; rfl, Or.inl ⟨by positivity, ?_⟩⟩
    refine ⟨?_, ?_⟩
    · exact List.mem_append_left _ (List.mem_append_left _ (hdef i _ (List.getElem?_eq_getElem hi)))
    · refine List.mem_append_left _ (List.mem_append_left _ ?_)
      by_cases hl : i + 1 < ps.length
      · rw [if_pos (by omega), dif_pos hl]
        exact hdef (i + 1) _ (List.getElem?_eq_getElem hl)
      · rw [if_neg (by omega), dif_neg hl]
        exact hdef 0 _ (List.getElem?_eq_getElem (by omega))

theorem fits_circle {S : List (Stmt K)} {c : Counters} (o : V2 K) (r : K) (h : Fits S c) :
    Fits (S ++ circleLines c o r) ⟨c.point + 2 + 1, c.line + 1 + 1, c.loop + 1, c.index + 1⟩ ∧ OutlineDrawn (S ++ circleLines c o r) c.loop (.circle o r) := by
  constructor
  · refine ⟨?_, by simp [h.loop]⟩
    have g1 := h.good.add (s := .point (c.point + 1) ⟨o.x - r, o.y, 0⟩) (B' := ⟨c.point + 1, c.line, c.index, 0, 0, 0⟩) (Nat.lt_succ_self _) (by simp [refs])
      (by intro x; cases x <;> simp [Bounds.get]) le_rfl
    have g2 := g1.add (s := .point (c.point + 2) ⟨o.x, o.y, 0⟩) (B' := ⟨c.point + 2, c.line, c.index, 0, 0, 0⟩) (Nat.lt_succ_self _) (by simp [refs])
      (by intro x; cases x <;> simp [Bounds.get]) le_rfl
    have g3 := g2.add (s := .point (c.point + 3) ⟨o.x + r, o.y, 0⟩) (B' := ⟨c.point + 3, c.line, c.index, 0, 0, 0⟩) (Nat.lt_succ_self _) (by simp [refs])
      (by intro x; cases x <;> simp [Bounds.get]) le_rfl
    have g4 := g3.add (s := .circle (c.line + 1) (c.point + 1) (c.point + 2) (c.point + 3)) (B' := ⟨c.point + 3, c.line + 1, c.index, 0, 0, 0⟩)
      (Nat.lt_succ_self _) (by simp [refs, key]) (by intro x; cases x <;> simp [Bounds.get]) le_rfl
    have g5 := g4.add (s := .circle (c.line + 2) (c.point + 3) (c.point + 2) (c.point + 1)) (B' := ⟨c.point + 3, c.line + 2, c.index, 0, 0, 0⟩)
      (Nat.lt_succ_self _) (by simp [refs, key]) (by intro x; cases x <;> simp [Bounds.get]) le_rfl
    have g6 := g5.add (s := .loop (c.index + 1) [((c.line + 1 : ℕ) : ℤ), ((c.line + 2 : ℕ) : ℤ)]) (B' := ⟨c.point + 3, c.line + 2, c.index + 1, 0, 0, 0⟩)
      (Nat.lt_succ_self _) (by
        intro r hr
        simp only [refs, List.map_cons, List.map_nil, List.mem_cons, List.not_mem_nil, or_false, Int.natAbs_natCast] at hr
        rcases hr with rfl | rfl <;> simp [key]) (by intro x; cases x <;> simp [Bounds.get]) le_rfl
    simpa [circleLines] using g6
  · refine ⟨c.line + 1, c.line + 2, c.point + 1, c.point + 2, c.point + 3, ?_⟩
    simp [circleLines, h.loop]

theorem fits_surface : ∀ {contours : List (Contour K)} {S : List (Stmt K)} {c : Counters}, Fits S c →
    (∀ x ∈ contours, x.Regular fun p q : V3 K => decide (p = q)) →
    (∃ c', Fits (S ++ (surfaceTurns c contours).1) c') ∧ List.Forall₂ (OutlineDrawn (S ++ (surfaceTurns c contours).1)) (surfaceTurns c contours).2 contours ∧
      ∀ t ∈ (surfaceTurns c contours).2, ((Kind.loop, t) : Kind × ℕ) ∈ (S ++ (surfaceTurns c contours).1).map key
  | [], S, c, h, _ => ⟨⟨c, by simpa [surfaceTurns] using h⟩, List.Forall₂.nil, by simp [surfaceTurns]⟩
  | x :: contours, S, c, h, hr => by
    have step : ∀ (l : List (Stmt K)) (c1 : Counters), Fits (S ++ l) c1 → OutlineDrawn (S ++ l) c.loop x → ((Kind.loop, c.loop) : Kind × ℕ) ∈ (S ++ l).map key →
        surfaceTurns c (x :: contours) = (l ++ (surfaceTurns c1 contours).1, c.loop :: (surfaceTurns c1 contours).2) →
        (∃ c', Fits (S ++ (surfaceTurns c (x :: contours)).1) c') ∧
        List.Forall₂ (OutlineDrawn (S ++ (surfaceTurns c (x :: contours)).1)) (surfaceTurns c (x :: contours)).2 (x :: contours) ∧
        ∀ t ∈ (surfaceTurns c (x :: contours)).2, ((Kind.loop, t) : Kind × ℕ) ∈ (S ++ (surfaceTurns c (x :: contours)).1).map key := by
      intro l c1 h1 hd hk e
      obtain ⟨g1, g2, g3⟩ := fits_surface (contours := contours) h1 fun y hy => hr y (List.mem_cons_of_mem _ hy)
      rw [e, ← List.append_assoc]
      refine ⟨g1, List.Forall₂.cons (OutlineDrawn.mono (List.subset_append_left _ _) hd) g2, ?_⟩
      intro t ht
      rcases List.mem_cons.1 ht with rfl | ht
      · exact mem_keys_append hk _
      · exact g3 t ht
    cases x with
    | circle o r =>
      obtain ⟨h1, h2⟩ := fits_circle o r h
      exact step _ _ h1 h2 (by rw [h.loop]; simp [circleLines, key]) rfl
    | polygon ps =>
      obtain ⟨h1, h2⟩ := fits_polygon h (hr _ List.mem_cons_self)
      exact step _ _ h1 h2 (by rw [h.loop]; simp [polygonLines, key]) rfl

theorem fits_start : Fits ([] : List (Stmt K)) ⟨0, 0, 1, 0⟩ := ⟨⟨fun pre s post e => by simp at e, by simp⟩, rfl⟩

theorem finish {S : List (Stmt K)} {c : Counters} {ts : List ℕ} {contours : List (Contour K)} (h : Fits S c) (hd : List.Forall₂ (OutlineDrawn S) ts contours)
    (hk : ∀ t ∈ ts, ((Kind.loop, t) : Kind × ℕ) ∈ S.map key) : WellFormed (S ++ [.surface true 1 ts]) ∧ DescribesSurface (S ++ [.surface true 1 ts]) contours := by
  constructor
  · refine (h.good.add (s := .surface true 1 ts) (B' := ⟨c.point, c.line, c.index, 1, 0, 0⟩) Nat.zero_lt_one ?_ ?_ le_rfl).1
    · intro r hr
      obtain ⟨t, ht, rfl⟩ := List.mem_map.1 hr
      exact hk t ht
    · intro x; cases x <;> simp [Bounds.get]
  · exact ⟨ts, by simp, hd.imp fun _ _ => OutlineDrawn.mono (List.subset_append_left _ _)⟩

/-- **C127** the `.geo` file of a 2D surface describes it: each polygon, whatever their number and their numbers of points, is a loop along its sides, when no point is
equal to the next one; each circle is a loop of two arcs between opposite points. -/
theorem C127_surface2d_partial (contours : List (Contour K)) (h : ∀ x ∈ contours, x.Regular fun p q : V3 K => decide (p = q)) :
    WellFormed (surface2dLines contours) ∧ DescribesSurface (surface2dLines contours) contours := by
  obtain ⟨⟨c', g1⟩, g2, g3⟩ := fits_surface fits_start h
  rw [List.nil_append] at g1 g2 g3
  exact finish g1 g2 g3

theorem fits_face : ∀ {contours : List (List (V3 K))} {S : List (Stmt K)} {c : Counters}, Fits S c → (∀ x ∈ contours, (Contour.polygon x).Regular near) →
    (∃ c', Fits (S ++ (faceTurns3 c (contours.map Contour.polygon)).1) c') ∧
    List.Forall₂ (OutlineDrawn (S ++ (faceTurns3 c (contours.map Contour.polygon)).1)) (faceTurns3 c (contours.map Contour.polygon)).2
      (contours.map Contour.polygon) ∧
    ∀ t ∈ (faceTurns3 c (contours.map Contour.polygon)).2, ((Kind.loop, t) : Kind × ℕ) ∈ (S ++ (faceTurns3 c (contours.map Contour.polygon)).1).map key
  | [], S, c, h, _ => ⟨⟨c, by simpa [faceTurns3] using h⟩, List.Forall₂.nil, by simp [faceTurns3]⟩
  | ps :: contours, S, c, h, hr => by
    obtain ⟨h1, h2⟩ := fits_polygon h (hr _ List.mem_cons_self)
    obtain ⟨g1, g2, g3⟩ := fits_face (contours := contours) h1 fun y hy => hr y (List.mem_cons_of_mem _ hy)
    have e : faceTurns3 c ((ps :: contours).map Contour.polygon) = (polygonLines near c ps ++ (faceTurns3 (afterPolygon near c ps) (contours.map Contour.polygon)).1,
        c.loop :: (faceTurns3 (afterPolygon near c ps) (contours.map Contour.polygon)).2) := rfl
    rw [e, ← List.append_assoc]
    refine ⟨g1, List.Forall₂.cons (OutlineDrawn.mono (List.subset_append_left _ _) h2) g2, ?_⟩
    intro t ht
    rcases List.mem_cons.1 ht with rfl | ht
    · exact mem_keys_append (by rw [h.loop]; simp [polygonLines, key]) _
    · exact g3 t ht

/-- **C127** the `.geo` file of a face describes the polygons of its contours, when no point of them is near the next one. -/
theorem C127_face3d_partial (contours : List (List (V3 K))) (h : ∀ x ∈ contours, (Contour.polygon x).Regular near) :
    WellFormed (face3dLines (contours.map Contour.polygon)) ∧ DescribesSurface (face3dLines (contours.map Contour.polygon)) (contours.map Contour.polygon) := by
  obtain ⟨⟨c', g1⟩, g2, g3⟩ := fits_face fits_start h
  rw [List.nil_append] at g1 g2 g3
  exact finish g1 g2 g3

/-- A square with a triangular and a circular hole. -/
def exampleContours : List (Contour ℚ) :=
  [.polygon [⟨0, 0, 0⟩, ⟨4, 0, 0⟩, ⟨4, 4, 0⟩, ⟨0, 4, 0⟩], .circle ⟨3, 3⟩ (1 / 2), .polygon [⟨1, 1, 0⟩, ⟨1, 2, 0⟩, ⟨2, 1, 0⟩]]


theorem exampleContours_regular : ∀ x ∈ exampleContours, x.Regular fun p q : V3 ℚ => decide (p = q) := by
  intro x hx
  simp only [exampleContours, List.mem_cons, List.not_mem_nil, or_false] at hx
  rcases hx with rfl | rfl | rfl
  · refine ⟨by decide, fun e he p q h => ?_⟩
    subst h
    simp only [sides, List.zipWith, List.cons_append, List.nil_append, List.mem_cons, List.not_mem_nil, or_false, Edge.seg.injEq] at he
    rcases he with ⟨rfl, rfl⟩ | ⟨rfl, rfl⟩ | ⟨rfl, rfl⟩ | ⟨rfl, rfl⟩ <;> decide +kernel
  · trivial
  · refine ⟨by decide, fun e he p q h => ?_⟩
    subst h
    simp only [sides, List.zipWith, List.cons_append, List.nil_append, List.mem_cons, List.not_mem_nil, or_false, Edge.seg.injEq] at he
    rcases he with ⟨rfl, rfl⟩ | ⟨rfl, rfl⟩ | ⟨rfl, rfl⟩ <;> decide +kernel

example : DescribesSurface (surface2dLines exampleContours) exampleContours := (C127_surface2d_partial _ exampleContours_regular).2

example : DescribesSurface (face3dLines [.polygon [(⟨0, 0, 1⟩ : V3 ℚ), ⟨4, 0, 2⟩, ⟨4, 4, 3⟩]]) [.polygon [⟨0, 0, 1⟩, ⟨4, 0, 2⟩, ⟨4, 4, 3⟩]] := by
  refine (C127_face3d_partial [[⟨0, 0, 1⟩, ⟨4, 0, 2⟩, ⟨4, 4, 3⟩]] ?_).2
  intro x hx
  rw [List.mem_singleton.1 hx]
  refine ⟨by decide, fun e he p q h => ?_⟩
  subst h
  simp only [sides, List.zipWith, List.cons_append, List.nil_append, List.mem_cons, List.not_mem_nil, or_false, Edge.seg.injEq] at he
  rcases he with ⟨rfl, rfl⟩ | ⟨rfl, rfl⟩ | ⟨rfl, rfl⟩ <;> decide +kernel

/-! ### Repeated points and circles -/

/-- The sides that are not reduced to a point. -/
def properSides (ps : List (V3 K)) : List (Edge K) := (sides ps).filter fun e : Edge K => match e with
  | .seg p q => decide (p ≠ q)
  | _ => true

/-- The full statement of C127 for polygons: also when a point is repeated, the loop goes along the sides. -/
def C127_full_statement (K : Type*) [Field K] [LinearOrder K] [IsStrictOrderedRing K] : Prop :=
  ∀ ps : List (V3 K), 3 ≤ (properSides ps).length →
    ∃ t ts, .loop t ts ∈ surface2dLines [.polygon ps] ∧ List.Forall₂ (Reads (surface2dLines [.polygon ps])) ts (properSides ps)

/-- **C127** the full statement is false: with a repeated point, the sides that are written are not those of the polygon. -/
theorem C127_repeated_counterexample : ¬ C127_full_statement ℚ := by
  intro h
  obtain ⟨t, ts, h1, h2⟩ := h [⟨0, 0, 0⟩, ⟨1, 0, 0⟩, ⟨1, 0, 0⟩, ⟨0, 1, 0⟩] (by decide +kernel)
  have hS : surface2dLines [.polygon [(⟨0, 0, 0⟩ : V3 ℚ), ⟨1, 0, 0⟩, ⟨1, 0, 0⟩, ⟨0, 1, 0⟩]] =
      [.point 1 ⟨0, 0, 0⟩, .point 2 ⟨1, 0, 0⟩, .point 3 ⟨1, 0, 0⟩, .point 4 ⟨0, 1, 0⟩, .line 1 1 2, .line 2 2 3, .line 3 3 1, .loop 1 [1, 2, 3],
        .surface true 1 [1]] := by decide +kernel
  have hP : properSides [(⟨0, 0, 0⟩ : V3 ℚ), ⟨1, 0, 0⟩, ⟨1, 0, 0⟩, ⟨0, 1, 0⟩] = [.seg ⟨0, 0, 0⟩ ⟨1, 0, 0⟩, .seg ⟨1, 0, 0⟩ ⟨0, 1, 0⟩, .seg ⟨0, 1, 0⟩ ⟨0, 0, 0⟩] := by
    decide +kernel
  rw [hS] at h1 h2
  rw [hP] at h2
  simp at h1
  rw [h1.2] at h2
  cases h2 with
  | cons _ h2 =>
    cases h2 with
    | cons h2 _ =>
      obtain ⟨s, hs, hk, hd⟩ := h2
      rcases hd with ⟨-, hd⟩ | ⟨h', -⟩
      · simp at hs
        rcases hs with rfl | rfl | rfl | rfl | rfl | rfl | rfl | rfl | rfl <;> simp [key, Draws] at hk hd
      · exact absurd h' (by decide)

/-- **C127** a circle is never described: the two arcs of its loop are half circles, whereas `Circle` draws less than a half circle. -/
theorem C127_circle_counterexample (o : V2 K) (r : K) (t : ℕ) (ts : List ℤ) (es : List (Edge K)) (ht : .loop t ts ∈ surface2dLines [.circle o r]) :
    ¬ List.Forall₂ (Reads (surface2dLines [.circle o r])) ts es := by
  intro hf
  have hS : surface2dLines [.circle o r] = [.point 1 ⟨o.x - r, o.y, 0⟩, .point 2 ⟨o.x, o.y, 0⟩, .point 3 ⟨o.x + r, o.y, 0⟩, .circle 1 1 2 3, .circle 2 3 2 1,
      .loop 1 [1, 2], .surface true 1 [1]] := by
    simp [surface2dLines, surfaceTurns, circleLines]
  rw [hS] at ht hf
  simp at ht
  rw [ht.2] at hf
  cases hf with
  | @cons _ e _ _ h _ =>
    obtain ⟨s, hs, hk, hd⟩ := h
    rcases hd with ⟨-, hd⟩ | ⟨h', -⟩
    · simp at hs
      rcases hs with rfl | rfl | rfl | rfl | rfl | rfl | rfl <;> simp [key] at hk
      cases e with
      | seg _ _ => exact hd
      | spline _ => exact hd
      | arc p c m q =>
        obtain ⟨h1, h2, h3, h4⟩ := hd
        simp at h1 h2 h3
        subst h1 h2 h3
        unfold Minor at h4
        simp [V3.dot] at h4
    · exact absurd h' (by decide)

/-! ## C128: mesh fields -/

/-- The number of a field. -/
def MeshStmt.number? : MeshStmt K → Option ℕ
  | .mathEval n _ => some n
  | .restrict n _ _ => some n
  | .minAniso n _ => some n
  | .background _ => none

/-- The fields that a line refers to. -/
def MeshStmt.fields : MeshStmt K → List ℕ
  | .mathEval _ _ => []
  | .restrict _ f _ => [f]
  | .minAniso _ l => l
  | .background n => [n]

/-- Fields are numbered once, and are defined before they are used. -/
def FieldsDefined (M : List (MeshStmt K)) : Prop :=
  ∀ pre s post, M = pre ++ s :: post → (∀ n, s.number? = some n → 0 < n ∧ n ∉ pre.filterMap MeshStmt.number?) ∧ ∀ f ∈ s.fields, f ∈ pre.filterMap MeshStmt.number?

/-- The size is asked for in the volume. -/
def SizeIn (M : List (MeshStmt K)) (size : K) (volume : ℕ) : Prop :=
  ∃ f n b l, .mathEval f size ∈ M ∧ .restrict n f volume ∈ M ∧ .minAniso b l ∈ M ∧ n ∈ l ∧ .background b ∈ M

/-- The bodies of `meshTurns`. -/
structure FieldInv (M : List (MeshStmt K)) (field : ℕ) : Prop where
  defined : FieldsDefined M
  below : ∀ n ∈ M.filterMap MeshStmt.number?, n < field
  pos : 0 < field

theorem FieldsDefined.add {M : List (MeshStmt K)} {s : MeshStmt K} (h : FieldsDefined M) (hn : ∀ n, s.number? = some n → 0 < n ∧ n ∉ M.filterMap MeshStmt.number?)
    (hf : ∀ f ∈ s.fields, f ∈ M.filterMap MeshStmt.number?) : FieldsDefined (M ++ [s]) := by
  intro pre t post e
  rcases List.eq_nil_or_concat post with rfl | ⟨post', u, rfl⟩
  · obtain ⟨rfl, e'⟩ := List.append_inj' e rfl
    obtain rfl : s = t := by simpa using e'
    exact ⟨hn, hf⟩
  · rw [List.concat_eq_append, ← List.cons_append, ← List.append_assoc] at e
    obtain ⟨e1, -⟩ := List.append_inj' e rfl
    exact h pre t post' e1

theorem FieldInv.add {M : List (MeshStmt K)} {field : ℕ} {s : MeshStmt K} (h : FieldInv M field) (hn : s.number? = some field)
    (hf : ∀ f ∈ s.fields, f ∈ M.filterMap MeshStmt.number?) : FieldInv (M ++ [s]) (field + 1) := by
  refine ⟨h.defined.add ?_ hf, ?_, Nat.succ_pos _⟩
  · intro n e
    obtain rfl : field = n := Option.some.inj (hn.symm.trans e)
    exact ⟨h.pos, fun hm => absurd (h.below _ hm) (lt_irrefl _)⟩
  · intro n hm
    rw [List.filterMap_append, List.mem_append] at hm
    rcases hm with hm | hm
    · have := h.below n hm; omega
    · have : n = field := by
        simp only [List.filterMap_cons, hn, List.filterMap_nil, List.mem_singleton] at hm
        exact hm
      omega

theorem meshTurns_inv (size : List (Face K) → K) : ∀ (prims : List (Prim K)) (i field : ℕ) (M : List (MeshStmt K)), FieldInv M field →
    FieldInv (M ++ (meshTurns size i field prims).1) (meshTurns size i field prims).2.2 ∧
    (∀ n ∈ (meshTurns size i field prims).2.1, n ∈ (meshTurns size i field prims).1.filterMap MeshStmt.number?) ∧
    (∀ (k : ℕ) faces, prims[k]? = some (.closed faces) → ∃ f n, .mathEval f (size faces) ∈ (meshTurns size i field prims).1 ∧
      .restrict n f (i + k + 1) ∈ (meshTurns size i field prims).1 ∧ n ∈ (meshTurns size i field prims).2.1) ∧
    (∀ n f v, .restrict n f v ∈ (meshTurns size i field prims).1 → ∃ (k : ℕ) (faces : List (Face K)), prims[k]? = some (.closed faces) ∧ v = i + k + 1 ∧
      .mathEval f (size faces) ∈ (meshTurns size i field prims).1)
  | [], i, field, M, h => ⟨by simpa [meshTurns] using h, by simp [meshTurns], by simp, by simp [meshTurns]⟩
  | .other :: l, i, field, M, h => by
    obtain ⟨h1, h2, h3, h4⟩ := meshTurns_inv size l (i + 1) field M h
    refine ⟨h1, h2, ?_, ?_⟩
    · intro k faces hk
      rcases k with _ | k
      · cases hk
      · obtain ⟨f, n, a, b, c⟩ := h3 k faces hk
        refine ⟨f, n, a, ?_, c⟩
        rw [show i + (k + 1) + 1 = i + 1 + k + 1 by omega]; exact b
    · intro n f v hm
      obtain ⟨k, faces, a, b, c⟩ := h4 n f v hm
      exact ⟨k + 1, faces, a, by omega, c⟩
  | .opened _ :: l, i, field, M, h => by
    obtain ⟨h1, h2, h3, h4⟩ := meshTurns_inv size l (i + 1) field M h
    refine ⟨h1, h2, ?_, ?_⟩
    · intro k faces hk
      rcases k with _ | k
      · cases hk
      · obtain ⟨f, n, a, b, c⟩ := h3 k faces hk
        refine ⟨f, n, a, ?_, c⟩
        rw [show i + (k + 1) + 1 = i + 1 + k + 1 by omega]; exact b
    · intro n f v hm
      obtain ⟨k, faces, a, b, c⟩ := h4 n f v hm
      exact ⟨k + 1, faces, a, by omega, c⟩
  | .closed faces :: l, i, field, M, h => by
    have g1 : FieldInv (M ++ [.mathEval field (size faces)]) (field + 1) := h.add rfl (by simp [MeshStmt.fields])
    have g2 : FieldInv (M ++ [.mathEval field (size faces)] ++ [.restrict (field + 1) field (i + 1)]) (field + 2) :=
      g1.add rfl (by simp [MeshStmt.fields, MeshStmt.number?, List.filterMap_append])
    obtain ⟨h1, h2, h3, h4⟩ := meshTurns_inv size l (i + 1) (field + 2) _ g2
    have e : meshTurns size i field (.closed faces :: l) = (.mathEval field (size faces) :: .restrict (field + 1) field (i + 1) :: (meshTurns size (i + 1) (field + 2) l).1,
        (field + 1) :: (meshTurns size (i + 1) (field + 2) l).2.1, (meshTurns size (i + 1) (field + 2) l).2.2) := rfl
    rw [e]
    refine ⟨?_, ?_, ?_, ?_⟩
    · simpa using h1
    · intro n hn
      rcases List.mem_cons.1 hn with rfl | hn
      · simp [MeshStmt.number?]
      · simp only [List.filterMap_cons, MeshStmt.number?]
        exact List.mem_cons_of_mem _ (List.mem_cons_of_mem _ (h2 n hn))
    · intro k faces' hk
      rcases k with _ | k
      · obtain rfl : faces = faces' := by simpa using hk
        exact ⟨field, field + 1, by simp, by simp, by simp⟩
      · obtain ⟨f, n, a, b, c⟩ := h3 k faces' hk
        refine ⟨f, n, List.mem_cons_of_mem _ (List.mem_cons_of_mem _ a), ?_, List.mem_cons_of_mem _ c⟩
        rw [show i + (k + 1) + 1 = i + 1 + k + 1 by omega]
        exact List.mem_cons_of_mem _ (List.mem_cons_of_mem _ b)
    · intro n f v hm
      rcases List.mem_cons.1 hm with hm | hm
      · cases hm
      rcases List.mem_cons.1 hm with hm | hm
      · cases hm
        exact ⟨0, faces, rfl, rfl, by simp⟩
      · obtain ⟨k, faces', a, b, c⟩ := h4 n f v hm
        exact ⟨k + 1, faces', a, by omega, List.mem_cons_of_mem _ (List.mem_cons_of_mem _ c)⟩

theorem closed_prefix : ∀ (prims : List (Prim K)) (n : ℕ), (∀ k < n, ∃ faces, prims[k]? = some (.closed faces)) → (∀ (k : ℕ) faces, prims[k]? = some (.closed faces) → k < n) →
    ∀ (k : ℕ) faces, (prims.filterMap Prim.closed?)[k]? = some faces ↔ prims[k]? = some (.closed faces)
  | [], n, _, _, k, faces => by simp
  | p :: l, 0, h1, h2, k, faces => by
    have hnil : (p :: l).filterMap Prim.closed? = [] := by
      rw [List.filterMap_eq_nil_iff]
      intro q hq
      cases q with
      | closed f =>
        obtain ⟨j, hj⟩ := List.getElem?_of_mem hq
        exact absurd (h2 j f hj) (Nat.not_lt_zero _)
      | opened _ => rfl
      | other => rfl
    rw [hnil]
    constructor
    · intro h; simp at h
    · intro h; exact absurd (h2 k faces h) (Nat.not_lt_zero _)
  | p :: l, n + 1, h1, h2, k, faces => by
    obtain ⟨f, hf⟩ := h1 0 (Nat.succ_pos _)
    obtain rfl : p = .closed f := by simpa using hf
    have e : (Prim.closed f :: l).filterMap Prim.closed? = f :: l.filterMap Prim.closed? := rfl
    rw [e]
    rcases k with _ | k
    · simp
    · exact closed_prefix l n (fun k hk => h1 (k + 1) (by omega)) (fun k faces hk => by have := h2 (k + 1) faces hk; omega) k faces

/-- Each closed shell has its size in its own volume, and fields are restricted to volumes of the file only. -/
def MeshDescribes (size : List (Face K) → K) (M : List (MeshStmt K)) (prims : List (Prim K)) : Prop :=
  (∀ (k : ℕ) faces, (prims.filterMap Prim.closed?)[k]? = some faces → SizeIn M (size faces) (k + 1)) ∧
  ∀ n f v, .restrict n f v ∈ M → ∃ (k : ℕ) (faces : List (Face K)), (prims.filterMap Prim.closed?)[k]? = some faces ∧ v = k + 1 ∧ .mathEval f (size faces) ∈ M

/-- **C128** without `min_points`: the fields are defined once and before they are used; when the closed shells come first in the model, each volume (numbered as in C126) gets the
size of its shell. -/
theorem C128_fields_partial (size : List (Face K) → K) (prims : List (Prim K)) :
    ∃ M, meshLines size false prims = .ok M ∧ FieldsDefined M ∧
      ∀ n, (∀ k < n, ∃ faces, prims[k]? = some (.closed faces)) → (∀ (k : ℕ) faces, prims[k]? = some (.closed faces) → k < n) → MeshDescribes size M prims := by
  have h0 : FieldInv ([] : List (MeshStmt K)) 1 := ⟨fun pre s post e => by simp at e, by simp, Nat.one_pos⟩
  obtain ⟨h1, h2, h3, h4⟩ := meshTurns_inv size prims 0 1 [] h0
  rw [List.nil_append] at h1
  refine ⟨(meshTurns size 0 1 prims).1 ++ [.minAniso (meshTurns size 0 1 prims).2.2 (meshTurns size 0 1 prims).2.1, .background (meshTurns size 0 1 prims).2.2],
    rfl, ?_, ?_⟩
  · have g1 := h1.add (s := .minAniso (meshTurns size 0 1 prims).2.2 (meshTurns size 0 1 prims).2.1) rfl h2
    have g2 := g1.defined.add (s := .background (meshTurns size 0 1 prims).2.2) (by intro n e; cases e) (by
      simp [MeshStmt.fields, MeshStmt.number?, List.filterMap_append])
    simpa using g2
  · intro n hn1 hn2
    have hiff := closed_prefix prims n hn1 hn2
    constructor
    · intro k faces hk
      obtain ⟨f, m, a, b, c⟩ := h3 k faces ((hiff k faces).1 hk)
      refine ⟨f, m, (meshTurns size 0 1 prims).2.2, (meshTurns size 0 1 prims).2.1, List.mem_append_left _ a, List.mem_append_left _ ?_, List.mem_append_right _ (by simp), c, List.mem_append_right _ (by simp)⟩
      rwa [Nat.zero_add] at b
    · intro m f v hm
      have hm' : MeshStmt.restrict m f v ∈ (meshTurns size 0 1 prims).1 := by
        rcases List.mem_append.1 hm with hm | hm
        · exact hm
        · simp at hm
      obtain ⟨k, faces, a, b, c⟩ := h4 m f v hm'
      exact ⟨k, faces, (hiff k faces).2 a, by omega, List.mem_append_left _ c⟩

/-- The full statement of C128: wherever the closed shells are in the model, and whether or not a least number of points is asked for. -/
def C128_full_statement (K : Type*) [Field K] [LinearOrder K] [IsStrictOrderedRing K] : Prop :=
  ∀ (size : List (Face K) → K) (minPoints : Bool) (prims : List (Prim K)), ∃ M, meshLines size minPoints prims = .ok M ∧ FieldsDefined M ∧ MeshDescribes size M prims

/-- **C128** the full statement is false: after an open shell, the field of a closed shell is restricted to a volume that does not exist. -/
theorem C128_counterexample : ¬ C128_full_statement ℚ := by
  intro h
  obtain ⟨M, hM, -, -, hv⟩ := h (fun _ => 1) false [.opened [], .closed []]
  have e : meshLines (fun _ : List (Face ℚ) => (1 : ℚ)) false [.opened [], .closed []] =
      .ok [.mathEval 1 1, .restrict 2 1 2, .minAniso 3 [2], .background 3] := rfl
  rw [e] at hM
  cases hM
  obtain ⟨k, faces, h1, h2, -⟩ := hv 2 1 2 (by simp)
  have : k = 1 := by omega
  subst this
  have e2 : ([Prim.opened [], Prim.closed []] : List (Prim ℚ)).filterMap Prim.closed? = [[]] := rfl
  rw [e2] at h1
  cases h1

/-- **C128** with `min_points`, writing the mesh of any model with a closed shell raises. -/
theorem C128_min_points (size : List (Face K) → K) (before after : List (Prim K)) (f : Face K) (faces : List (Face K)) :
    meshLines size true (before ++ .closed (f :: faces) :: after) = .error .keyError := by
  unfold meshLines
  rw [if_pos]
  rw [Bool.true_and, List.any_append, List.any_cons]
  exact (congrArg _ (Bool.true_or _)).trans (Bool.or_true _)

example : ∃ M, meshLines (fun f : List (Face ℚ) => (f.length : ℚ)) false [.closed [⟨true, []⟩], .closed [], .other] = .ok M ∧ FieldsDefined M ∧ SizeIn M 0 2 := by
  obtain ⟨M, h1, h2, h3⟩ := C128_fields_partial (fun f : List (Face ℚ) => (f.length : ℚ)) [.closed [⟨true, []⟩], .closed [], .other]
  refine ⟨M, h1, h2, ?_⟩
  have := (h3 2 (by
    intro k hk
    rcases k with _ | _ | k
    · exact ⟨_, rfl⟩
    · exact ⟨_, rfl⟩
    · omega) (by
    intro k faces hk
    rcases k with _ | _ | _ | k
    · omega
    · omega
    · simp at hk
    · simp at hk)).1 1 [] rfl
  simpa using this

end Volmdlr.Geo
