import Verif.Polygon.Props
import Mathlib.Data.List.Perm.Basic

/-!
# C48, C49: points in polygons
-/

namespace Volmdlr
section
variable {K : Type*} [Field K] [LinearOrder K]

/-- Specification: the point projects orthogonally on the edge, at a distance of at most `tol`. -/
def NearEdge (pt : V2 K) (tol : K) (e : V2 K × V2 K) : Prop :=
  ∃ t : K, 0 ≤ t ∧ t ≤ 1 ∧
    (pt.x - (e.1.x + t * (e.2.x - e.1.x))) * (e.2.x - e.1.x) +
      (pt.y - (e.1.y + t * (e.2.y - e.1.y))) * (e.2.y - e.1.y) = 0 ∧
    (pt.x - (e.1.x + t * (e.2.x - e.1.x))) ^ 2 + (pt.y - (e.1.y + t * (e.2.y - e.1.y))) ^ 2 ≤ tol ^ 2

/-- Specification: the horizontal ray from the point to the right meets the edge, the lower end of the edge
being excluded and the upper end included. -/
def RayCrosses (pt : V2 K) (e : V2 K × V2 K) : Prop :=
  (e.1.y < pt.y ∧ pt.y ≤ e.2.y ∨ e.2.y < pt.y ∧ pt.y ≤ e.1.y) ∧
  ∃ s : K, pt.y = e.1.y + s * (e.2.y - e.1.y) ∧ pt.x < e.1.x + s * (e.2.x - e.1.x)

/-- Specification: consecutive vertices of the closed polygon are distinct. -/
def NoFlatEdge (poly : List (V2 K)) : Prop := ∀ e ∈ polygonEdges poly, e.1 ≠ e.2

end
section
variable {K : Type*} [Field K] [LinearOrder K] [IsStrictOrderedRing K]

theorem sq_add_sq_ne_zero_of_ne {p q : V2 K} (h : p ≠ q) : (q.x - p.x) ^ 2 + (q.y - p.y) ^ 2 ≠ 0 := by
  intro e
  apply h
  have hx : (q.x - p.x) ^ 2 = 0 := by nlinarith [sq_nonneg (q.x - p.x), sq_nonneg (q.y - p.y)]
  have hy : (q.y - p.y) ^ 2 = 0 := by nlinarith [sq_nonneg (q.x - p.x), sq_nonneg (q.y - p.y)]
  ext
  · linarith [pow_eq_zero_iff (two_ne_zero) |>.1 hx]
  · linarith [pow_eq_zero_iff (two_ne_zero) |>.1 hy]

theorem projTest_iff (pt p q : V2 K) (tol : K) (h : p ≠ q) :
    let t := ((pt.x - p.x) * (q.x - p.x) + (pt.y - p.y) * (q.y - p.y)) / ((q.x - p.x) ^ 2 + (q.y - p.y) ^ 2)
    projTest pt ⟨p.x + (q.x - p.x) * t, p.y + (q.y - p.y) * t⟩ t tol = true ↔ NearEdge pt tol (p, q) := by
  intro t
  have hne := sq_add_sq_ne_zero_of_ne h
  have ht : t * ((q.x - p.x) ^ 2 + (q.y - p.y) ^ 2) = (pt.x - p.x) * (q.x - p.x) + (pt.y - p.y) * (q.y - p.y) :=
    div_mul_cancel₀ _ hne
  simp only [projTest, Bool.and_eq_true, decide_eq_true_eq, NearEdge]
  constructor
  · rintro ⟨⟨h0, h1⟩, h2⟩
    refine ⟨t, h0, h1, by linear_combination -ht, ?_⟩
    calc _ = (p.x + (q.x - p.x) * t - pt.x) ^ 2 + (p.y + (q.y - p.y) * t - pt.y) ^ 2 := by ring
      _ ≤ _ := h2
  · rintro ⟨s, h0, h1, ho, h2⟩
    have hs : s = t := by
      apply mul_right_cancel₀ hne
      rw [ht]; linear_combination -ho
    rw [hs] at h0 h1 h2
    refine ⟨⟨h0, h1⟩, ?_⟩
    calc _ = (pt.x - (p.x + t * (q.x - p.x))) ^ 2 + (pt.y - (p.y + t * (q.y - p.y))) ^ 2 := by ring
      _ ≤ _ := h2

/-- The exact test never changes the answer in exact arithmetic: a point that passes it is near the edge. -/
theorem onEdge_near (pt p q : V2 K) (tol : K) (h : p ≠ q) (ho : onEdgeTest p q pt = true) :
    NearEdge pt tol (p, q) := by
  unfold onEdgeTest at ho
  split at ho
  · rename_i hb
    obtain ⟨hy1, hy2, hx1, hx2⟩ := hb
    simp only [Bool.or_eq_true, decide_eq_true_eq] at ho
    -- the parameter of the point on the edge
    have key : ∃ t : K, 0 ≤ t ∧ t ≤ 1 ∧ pt.x = p.x + t * (q.x - p.x) ∧ pt.y = p.y + t * (q.y - p.y) := by
      by_cases he : p.y = q.y
      · have hxne : q.x - p.x ≠ 0 := by
          intro e; apply h; ext
          · linarith
          · exact he
        have hty : pt.y = p.y := by
          rw [he, min_self] at hy1; rw [he, max_self] at hy2; rw [he]; exact le_antisymm hy2 hy1
        refine ⟨(pt.x - p.x) / (q.x - p.x), ?_, ?_, ?_, ?_⟩
        · rcases lt_or_gt_of_ne hxne with hl | hg
          · apply div_nonneg_of_nonpos
            · rw [max_eq_left (by linarith)] at hx2; linarith
            · linarith
          · apply div_nonneg
            · rw [min_eq_left (by linarith)] at hx1; linarith
            · linarith
        · rcases lt_or_gt_of_ne hxne with hl | hg
          · rw [div_le_one_of_neg hl]
            rw [min_eq_right (by linarith)] at hx1; linarith
          · rw [div_le_one hg]
            rw [max_eq_right (by linarith)] at hx2; linarith
        · rw [div_mul_cancel₀ _ hxne]; ring
        · rw [hty, he]; ring
      · have hyne : q.y - p.y ≠ 0 := fun e => he (by linarith)
        have hx := ho.resolve_left he
        refine ⟨(pt.y - p.y) / (q.y - p.y), ?_, ?_, ?_, ?_⟩
        · rcases lt_or_gt_of_ne hyne with hl | hg
          · apply div_nonneg_of_nonpos
            · rw [max_eq_left (by linarith)] at hy2; linarith
            · linarith
          · apply div_nonneg
            · rw [min_eq_left (by linarith)] at hy1; linarith
            · linarith
        · rcases lt_or_gt_of_ne hyne with hl | hg
          · rw [div_le_one_of_neg hl]
            rw [min_eq_right (by linarith)] at hy1; linarith
          · rw [div_le_one hg]
            rw [max_eq_right (by linarith)] at hy2; linarith
        · rw [hx]; field_simp; ring
        · rw [div_mul_cancel₀ _ hyne]; ring
    obtain ⟨t, h0, h1, ex, ey⟩ := key
    refine ⟨t, h0, h1, ?_, ?_⟩
    · dsimp only; rw [ex, ey]; ring
    · dsimp only; rw [ex, ey]; simp only [sub_self]; nlinarith [sq_nonneg tol]
  · exact absurd ho (by simp)

theorem toggles_iff (pt p q : V2 K) (ho : onEdgeTest p q pt = false) :
    toggles p q pt = true ↔ RayCrosses pt (p, q) := by
  unfold toggles RayCrosses
  dsimp only
  constructor
  · intro ht
    split at ht
    · rename_i hb
      obtain ⟨h1, h2, h3⟩ := hb
      simp only [Bool.or_eq_true, decide_eq_true_eq] at ht
      have hy : p.y < pt.y ∧ pt.y ≤ q.y ∨ q.y < pt.y ∧ pt.y ≤ p.y := by
        rcases le_total p.y q.y with hle | hle
        · rw [min_eq_left hle] at h1; rw [max_eq_right hle] at h2; exact Or.inl ⟨h1, h2⟩
        · rw [min_eq_right hle] at h1; rw [max_eq_left hle] at h2; exact Or.inr ⟨h1, h2⟩
      have hyne : q.y - p.y ≠ 0 := by
        intro e; rcases hy with ⟨a, b⟩ | ⟨a, b⟩ <;> linarith
      refine ⟨hy, (pt.y - p.y) / (q.y - p.y), ?_, ?_⟩
      · rw [div_mul_cancel₀ _ hyne]; ring
      · rcases ht with ht | ht
        · rw [ht, max_self] at h3
          rw [ht, sub_self, mul_zero, add_zero]
          rcases h3.lt_or_eq with h | h
          · exact h
          · exfalso
            rw [onEdgeTest, if_pos ⟨h1.le, h2, by rw [ht, min_self, h], by rw [ht, max_self, h]⟩] at ho
            simp only [Bool.or_eq_false_iff, decide_eq_false_iff_not] at ho
            apply ho.2; rw [ht, h]; simp
        · calc pt.x < _ := ht
            _ = _ := by field_simp; ring
    · exact absurd ht (by simp)
  · rintro ⟨hy, s, hs1, hs2⟩
    have hyne : q.y - p.y ≠ 0 := by
      intro e; rcases hy with ⟨a, b⟩ | ⟨a, b⟩ <;> linarith
    have hs : s = (pt.y - p.y) / (q.y - p.y) := by rw [eq_div_iff hyne, hs1]; ring
    have h0 : 0 ≤ s ∧ s ≤ 1 := by
      rcases hy with ⟨a, b⟩ | ⟨a, b⟩
      · have hp : 0 < q.y - p.y := by linarith
        constructor
        · rw [hs]; exact div_nonneg (by linarith) hp.le
        · rw [hs, div_le_one hp]; linarith
      · have hp : q.y - p.y < 0 := by linarith
        constructor
        · rw [hs]; exact div_nonneg_of_nonpos (by linarith) hp.le
        · rw [hs, div_le_one_of_neg hp]; linarith
    have hmax : p.x + s * (q.x - p.x) ≤ max p.x q.x := by
      have e1 := le_max_left p.x q.x
      have e2 := le_max_right p.x q.x
      nlinarith [mul_le_mul_of_nonneg_left e1 (sub_nonneg.2 h0.2), mul_le_mul_of_nonneg_left e2 h0.1]
    have hc1 : min p.y q.y < pt.y := by
      rcases hy with ⟨a, b⟩ | ⟨a, b⟩
      · exact (min_le_left _ _).trans_lt a
      · exact (min_le_right _ _).trans_lt a
    have hc2 : pt.y ≤ max p.y q.y := by
      rcases hy with ⟨a, b⟩ | ⟨a, b⟩
      · exact b.trans (le_max_right _ _)
      · exact b.trans (le_max_left _ _)
    rw [if_pos ⟨hc1, hc2, by linarith⟩]
    simp only [Bool.or_eq_true, decide_eq_true_eq]
    right
    calc pt.x < _ := hs2
      _ = _ := by rw [hs]; field_simp; ring

open Classical in
theorem belongsLoop_spec (pt : V2 K) (incl : Bool) (tol : K) (es : List (V2 K × V2 K)) (b : Bool)
    (hf : ∀ e ∈ es, e.1 ≠ e.2) :
    ((∃ e ∈ es, NearEdge pt tol e) → belongsLoop pt incl tol es b = .ok incl) ∧
    ((∀ e ∈ es, ¬ NearEdge pt tol e) → belongsLoop pt incl tol es b =
      .ok (b ^^ decide ((es.countP fun e => decide (RayCrosses pt e)) % 2 = 1))) := by
  induction es generalizing b with
  | nil => simp [belongsLoop]
  | cons e es ih =>
    obtain ⟨p, q⟩ := e
    have hne : p ≠ q := hf (p, q) (by simp)
    have hl := sq_add_sq_ne_zero_of_ne hne
    have hes : ∀ e ∈ es, e.1 ≠ e.2 := fun e he => hf e (by simp [he])
    have hp := projTest_iff pt p q tol hne
    dsimp only at hp
    constructor
    · rintro ⟨e, he, hn⟩
      simp only [belongsLoop]
      rw [if_neg hl]
      by_cases h1 : NearEdge pt tol (p, q)
      · rw [if_pos (hp.2 h1)]
      · rw [if_neg (fun h => h1 (hp.1 h)), if_neg (fun h => h1 (onEdge_near pt p q tol hne h))]
        rcases List.mem_cons.1 he with rfl | he
        · exact absurd hn h1
        · exact (ih _ hes).1 ⟨e, he, hn⟩
    · intro hn
      have h1 : ¬ NearEdge pt tol (p, q) := hn _ (by simp)
      have ho : ¬ onEdgeTest p q pt = true := fun h => h1 (onEdge_near pt p q tol hne h)
      simp only [belongsLoop]
      rw [if_neg hl, if_neg (fun h => h1 (hp.1 h)), if_neg ho, (ih _ hes).2 (fun e he => hn e (by simp [he]))]
      have ht := toggles_iff pt p q (by simpa using ho)
      by_cases hc : RayCrosses pt (p, q)
      · rw [if_pos (ht.2 hc), List.countP_cons_of_pos (by simpa using hc)]
        congr 1
        rcases Nat.mod_two_eq_zero_or_one (es.countP fun e => decide (RayCrosses pt e)) with h | h <;>
          simp [h, Nat.add_mod]
      · rw [if_neg (fun h => hc (ht.1 h)), List.countP_cons_of_neg (by simpa using hc)]

open Classical in
/-- **C49** even–odd rule.  For a polygon without repeated consecutive vertices `polygon_point_belongs`
returns the `include_edge_points` flag for a point near an edge, and otherwise the parity of the number of
edges met by the horizontal ray to the right. -/
theorem C49_even_odd (poly : List (V2 K)) (pt : V2 K) (incl : Bool) (tol : K) (hf : NoFlatEdge poly) :
    ((∃ e ∈ polygonEdges poly, NearEdge pt tol e) → polygonPointBelongs poly pt incl tol = .ok incl) ∧
    ((∀ e ∈ polygonEdges poly, ¬ NearEdge pt tol e) → polygonPointBelongs poly pt incl tol =
      .ok (decide (((polygonEdges poly).countP fun e => decide (RayCrosses pt e)) % 2 = 1))) := by
  have h := belongsLoop_spec pt incl tol (polygonEdges poly) false hf
  refine ⟨h.1, fun hn => ?_⟩
  rw [polygonPointBelongs, h.2 hn]; simp
example : polygonPointBelongs [(⟨0, 0⟩ : V2 ℚ), ⟨2, 0⟩, ⟨2, 2⟩, ⟨0, 2⟩] ⟨1, 1⟩ false (1 / 10 ^ 6) = .ok true := by
  decide +kernel
example : polygonPointBelongs [(⟨0, 0⟩ : V2 ℚ), ⟨2, 0⟩, ⟨2, 2⟩, ⟨0, 2⟩] ⟨3, 1⟩ true (1 / 10 ^ 6) = .ok false := by
  decide +kernel
example : polygonPointBelongs [(⟨0, 0⟩ : V2 ℚ), ⟨2, 0⟩, ⟨2, 2⟩, ⟨0, 2⟩] ⟨2, 1⟩ true (1 / 10 ^ 6) = .ok true := by
  decide +kernel
example : NoFlatEdge [(⟨0, 0⟩ : V2 ℚ), ⟨2, 0⟩, ⟨2, 2⟩, ⟨0, 2⟩] := by
  unfold NoFlatEdge; decide +kernel

/-- Consecutive pairs of `a :: l`. -/
def chainPairs {α : Type*} : α → List α → List (α × α)
  | _, [] => []
  | a, b :: l => (a, b) :: chainPairs b l

omit [LinearOrder K] [IsStrictOrderedRing K] in
theorem polygonEdges_cons (a : V2 K) (t : List (V2 K)) : polygonEdges (a :: t) = chainPairs a (t ++ [a]) := by
  have gen : ∀ (t : List (V2 K)) (a z : V2 K), (a :: t).zip (t ++ [z]) = chainPairs a (t ++ [z]) := by
    intro t
    induction t with
    | nil => intro a z; simp [chainPairs]
    | cons b t ih => intro a z; simp only [List.cons_append, List.zip_cons_cons, chainPairs, ih]
  exact gen t a a
theorem chainPairs_append {α : Type*} (a b : α) (l m : List α) :
    chainPairs a (l ++ b :: m) = chainPairs a (l ++ [b]) ++ chainPairs b m := by
  induction l generalizing a with
  | nil => simp [chainPairs]
  | cons c l ih => simp only [List.cons_append, chainPairs]; rw [ih]
theorem chainPairs_reverse {α : Type*} (a b : α) (l : List α) :
    chainPairs b (l.reverse ++ [a]) = ((chainPairs a (l ++ [b])).map Prod.swap).reverse := by
  induction l generalizing a with
  | nil => simp [chainPairs]
  | cons c l ih =>
    simp only [List.reverse_cons, List.append_assoc, List.cons_append, List.nil_append, chainPairs]
    rw [chainPairs_append, ih]
    simp [chainPairs]
omit [LinearOrder K] [IsStrictOrderedRing K] in
theorem polygonEdges_rotate_one (a : V2 K) (l : List (V2 K)) :
    (polygonEdges (l ++ [a])).Perm (polygonEdges (a :: l)) := by
  cases l with
  | nil => rfl
  | cons b l =>
    rw [List.cons_append, polygonEdges_cons, polygonEdges_cons, List.append_assoc, List.singleton_append,
      chainPairs_append, List.cons_append, chainPairs, chainPairs]
    simpa [chainPairs] using List.perm_append_singleton (a, b) (chainPairs b (l ++ [a]))
omit [LinearOrder K] [IsStrictOrderedRing K] in
theorem polygonEdges_rotate (l m : List (V2 K)) : (polygonEdges (l ++ m)).Perm (polygonEdges (m ++ l)) := by
  induction l generalizing m with
  | nil => simp
  | cons a l ih =>
    have h1 := polygonEdges_rotate_one a (l ++ m)
    have h2 := ih (m ++ [a])
    rw [List.append_assoc, List.singleton_append] at h2
    rw [List.cons_append]
    refine h1.symm.trans ?_
    rw [List.append_assoc]; exact h2
omit [LinearOrder K] [IsStrictOrderedRing K] in
theorem polygonEdges_reverse (l : List (V2 K)) :
    (polygonEdges l.reverse).Perm ((polygonEdges l).map Prod.swap) := by
  cases l with
  | nil => simp [polygonEdges, rollLeft]
  | cons a l =>
    rw [List.reverse_cons]
    refine (polygonEdges_rotate_one a l.reverse).trans ?_
    rw [polygonEdges_cons, polygonEdges_cons, chainPairs_reverse]
    exact List.reverse_perm _

omit [IsStrictOrderedRing K] in
theorem nearEdge_swap (pt : V2 K) (tol : K) [IsStrictOrderedRing K] (e : V2 K × V2 K) :
    NearEdge pt tol e.swap ↔ NearEdge pt tol e := by
  have key : ∀ e : V2 K × V2 K, NearEdge pt tol e → NearEdge pt tol e.swap := by
    rintro ⟨p, q⟩ ⟨t, h0, h1, h2, h3⟩
    refine ⟨1 - t, by linarith, by linarith, ?_, ?_⟩
    · simp only [Prod.swap] at *; linear_combination -h2
    · simp only [Prod.swap] at *
      calc _ = _ := by ring
        _ ≤ _ := h3
  exact ⟨fun h => by simpa using key _ h, key e⟩
theorem rayCrosses_swap (pt : V2 K) (e : V2 K × V2 K) : RayCrosses pt e.swap ↔ RayCrosses pt e := by
  have key : ∀ e : V2 K × V2 K, RayCrosses pt e → RayCrosses pt e.swap := by
    rintro ⟨p, q⟩ ⟨h0, t, h1, h2⟩
    refine ⟨h0.symm, 1 - t, ?_, ?_⟩
    · simp only [Prod.swap] at *; linear_combination h1
    · simp only [Prod.swap] at *
      calc pt.x < _ := h2
        _ = _ := by ring
  exact ⟨fun h => by simpa using key _ h, key e⟩

theorem C49_perm_aux (l m : List (V2 K)) (pt : V2 K) (incl : Bool) (tol : K) (f : V2 K × V2 K → V2 K × V2 K)
    (hf : NoFlatEdge l) (hp : (polygonEdges m).Perm ((polygonEdges l).map f))
    (hne : ∀ e, (f e).1 = (f e).2 ↔ e.1 = e.2)
    (hn : ∀ e, NearEdge pt tol (f e) ↔ NearEdge pt tol e) (hr : ∀ e, RayCrosses pt (f e) ↔ RayCrosses pt e) :
    polygonPointBelongs m pt incl tol = polygonPointBelongs l pt incl tol := by
  classical
  have hfm : NoFlatEdge m := by
    intro e he
    obtain ⟨e', he', rfl⟩ := List.mem_map.1 (hp.mem_iff.1 he)
    exact fun h => hf e' he' ((hne e').1 h)
  by_cases hx : ∃ e ∈ polygonEdges l, NearEdge pt tol e
  · rw [(C49_even_odd l pt incl tol hf).1 hx]
    apply (C49_even_odd m pt incl tol hfm).1
    obtain ⟨e, he, h⟩ := hx
    exact ⟨f e, hp.mem_iff.2 (List.mem_map_of_mem he), (hn e).2 h⟩
  · push Not at hx
    rw [(C49_even_odd l pt incl tol hf).2 hx, (C49_even_odd m pt incl tol hfm).2, hp.countP_eq, List.countP_map]
    · congr 4
      congr 1; funext e
      simp only [Function.comp, hr]
    · intro e he
      obtain ⟨e', he', rfl⟩ := List.mem_map.1 (hp.mem_iff.1 he)
      exact fun h => hx e' he' ((hn e').1 h)

/-- **C49** the answer does not depend on the first vertex nor on the orientation of the polygon. -/
theorem C49_renumbering (l m : List (V2 K)) (pt : V2 K) (incl : Bool) (tol : K) (hf : NoFlatEdge (l ++ m)) :
    polygonPointBelongs (m ++ l) pt incl tol = polygonPointBelongs (l ++ m) pt incl tol ∧
    polygonPointBelongs (l ++ m).reverse pt incl tol = polygonPointBelongs (l ++ m) pt incl tol := by
  constructor
  · apply C49_perm_aux (l ++ m) (m ++ l) pt incl tol id hf
    · rw [List.map_id]; exact polygonEdges_rotate m l
    · simp
    · simp
    · simp
  · apply C49_perm_aux (l ++ m) (l ++ m).reverse pt incl tol Prod.swap hf (polygonEdges_reverse _)
    · intro e; exact eq_comm
    · exact nearEdge_swap pt tol
    · exact rayCrosses_swap pt

/-- **C49** the answer follows translations of polygon and point. -/
theorem C49_translation (l : List (V2 K)) (pt d : V2 K) (incl : Bool) (tol : K) :
    polygonPointBelongs (l.map (· + d)) (pt + d) incl tol = polygonPointBelongs l pt incl tol := by
  unfold polygonPointBelongs polygonEdges
  rw [rollLeft_map, List.zip_map]
  generalize l.zip (rollLeft l) = es
  generalize false = b
  induction es generalizing b with
  | nil => rfl
  | cons e es ih =>
    obtain ⟨p, q⟩ := e
    simp only [List.map_cons, Prod.map, belongsLoop, V2.add_x, V2.add_y, add_sub_add_right_eq_sub]
    congr 1
    have e1 : ∀ (t : K), projTest (pt + d) ⟨p.x + d.x + (q.x - p.x) * t, p.y + d.y + (q.y - p.y) * t⟩ t tol =
        projTest pt ⟨p.x + (q.x - p.x) * t, p.y + (q.y - p.y) * t⟩ t tol := by
      intro t; unfold projTest
      simp only [V2.add_x, V2.add_y]
      congr 3
      · ring
    have e2 : onEdgeTest (p + d) (q + d) (pt + d) = onEdgeTest p q pt := by
      unfold onEdgeTest
      simp only [V2.add_x, V2.add_y, min_add_add_right, max_add_add_right, add_le_add_iff_right,
        add_sub_add_right_eq_sub, add_left_inj, ← add_assoc]
    have e3 : toggles (p + d) (q + d) (pt + d) = toggles p q pt := by
      unfold toggles
      simp only [V2.add_x, V2.add_y, min_add_add_right, max_add_add_right, add_le_add_iff_right,
        add_sub_add_right_eq_sub, add_left_inj, ← add_assoc, add_lt_add_iff_right]
    rw [e1, e2, e3, ih]

/-! ### C48 -/

/-- The batch loop agrees with the single one: what a thread still has to do. -/
def PThread.Good (incl : Bool) (tol : K) (final : V2 K → Except PyErr Bool) (th : PThread K) : Prop :=
  (∀ e ∈ th.rest, e.1 ≠ e.2) ∧
  match th.res with
  | some b => final th.pt = .ok b
  | none => th.pc = 0 ∧ belongsLoop th.pt incl tol th.rest th.inside = final th.pt

/-- Five consecutive steps of one thread. -/
def PThread.block (incl : Bool) (tol : K) (sh : PShared K) (th : PThread K) : PShared K × PThread K :=
  let a := th.step incl tol sh
  let b := a.2.step incl tol a.1
  let c := b.2.step incl tol b.1
  let d := c.2.step incl tol c.1
  d.2.step incl tol d.1

omit [IsStrictOrderedRing K] in
theorem PThread.step_done (incl : Bool) (tol : K) (sh : PShared K) (th : PThread K) (b : Bool)
    (h : th.res = some b) : th.step incl tol sh = (sh, th) := by
  unfold PThread.step; rw [h]

theorem PThread.block_good (incl : Bool) (tol : K) (final : V2 K → Except PyErr Bool) (sh : PShared K)
    (th : PThread K) (h : th.Good incl tol final) :
    (th.block incl tol sh).2.Good incl tol final ∧ (th.block incl tol sh).2.pt = th.pt ∧
    (th.res = none → ((th.block incl tol sh).2.res ≠ none ∨
      (th.block incl tol sh).2.rest.length + 1 = th.rest.length)) := by
  obtain ⟨pt, rest, pc, t, inside, res⟩ := th
  cases res with
  | some b => simp [PThread.block, PThread.step_done _ _ _ _ b, h]
  | none =>
    obtain ⟨hf, hpc, hl⟩ := h
    dsimp only at hf hpc hl
    subst hpc
    cases rest with
    | nil =>
      have hb : (PThread.mk pt [] 0 t inside none).block incl tol sh = (sh, ⟨pt, [], 0, t, inside, some inside⟩) := by
        simp [PThread.block, PThread.step]
      rw [hb]
      simp only [belongsLoop] at hl
      exact ⟨⟨by simp, hl.symm⟩, rfl, fun _ => Or.inl (by simp)⟩
    | cons e es =>
      obtain ⟨p, q⟩ := e
      have hne : p ≠ q := hf (p, q) (by simp)
      have hlen := sq_add_sq_ne_zero_of_ne hne
      simp only [belongsLoop] at hl
      rw [if_neg hlen] at hl
      have e0 : (q.x - p.x) * (q.x - p.x) + (q.y - p.y) * (q.y - p.y) = (q.x - p.x) ^ 2 + (q.y - p.y) ^ 2 := by ring
      generalize hT : ((pt.x - p.x) * (q.x - p.x) + (pt.y - p.y) * (q.y - p.y)) /
        ((q.x - p.x) ^ 2 + (q.y - p.y) ^ 2) = T at hl
      have hb : ∃ sh', (PThread.mk pt ((p, q) :: es) 0 t inside none).block incl tol sh =
          (sh', if projTest pt ⟨p.x + (q.x - p.x) * T, p.y + (q.y - p.y) * T⟩ T tol then
              ⟨pt, (p, q) :: es, 4, T, inside, some incl⟩
            else if onEdgeTest p q pt then ⟨pt, (p, q) :: es, 4, T, inside, some incl⟩
            else ⟨pt, es, 0, T, if toggles p q pt then !inside else inside, none⟩) := by
        by_cases h01 : 0 ≤ T ∧ T ≤ 1
        · simp only [PThread.block, PThread.step, e0, hT, h01, and_self, if_true]
          split
          · exact ⟨_, rfl⟩
          · split
            · exact ⟨_, rfl⟩
            · exact ⟨_, rfl⟩
        · have hpf : ∀ P, projTest pt P T tol = false := by
            intro P; unfold projTest
            rw [← Bool.decide_and, decide_eq_false h01]; rfl
          simp only [PThread.block, PThread.step, e0, hT, h01, if_false, hpf]
          split
          · exact absurd ‹_› (by simp)
          · split
            · exact ⟨_, rfl⟩
            · exact ⟨_, rfl⟩
      obtain ⟨sh', hb⟩ := hb
      rw [hb]
      dsimp only
      split
      · rename_i h1
        rw [if_pos h1] at hl
        exact ⟨⟨hf, hl.symm⟩, rfl, fun _ => Or.inl (by simp)⟩
      · rename_i h1
        rw [if_neg h1] at hl
        split
        · rename_i h2
          rw [if_pos h2] at hl
          exact ⟨⟨hf, hl.symm⟩, rfl, fun _ => Or.inl (by simp)⟩
        · rename_i h2
          rw [if_neg h2] at hl
          exact ⟨⟨fun e he => hf e (by simp [he]), rfl, hl⟩, rfl, fun _ => Or.inr (by simp)⟩

omit [IsStrictOrderedRing K] in
theorem PState.run_block (incl : Bool) (tol : K) (s : PState K) (i : ℕ) (th : PThread K)
    (h : s.threads[i]? = some th) :
    s.run incl tol [i, i, i, i, i] =
      ⟨(th.block incl tol s.sh).1, s.threads.set i (th.block incl tol s.sh).2⟩ := by
  have hi : i < s.threads.length := by
    by_contra hc; rw [List.getElem?_eq_none (by omega)] at h; simp at h
  have one : ∀ (sh : PShared K) (t' : PThread K),
      PState.step incl tol ⟨sh, s.threads.set i t'⟩ i =
        ⟨(t'.step incl tol sh).1, s.threads.set i (t'.step incl tol sh).2⟩ := by
    intro sh t'
    simp only [PState.step, List.getElem?_set_self hi, List.set_set]
  have first : PState.step incl tol s i =
        ⟨(th.step incl tol s.sh).1, s.threads.set i (th.step incl tol s.sh).2⟩ := by
    simp only [PState.step, h]
  simp only [PState.run, List.foldl_cons, List.foldl_nil, first, one, PThread.block]

omit [IsStrictOrderedRing K] in
theorem PState.run_none (incl : Bool) (tol : K) (s : PState K) (i : ℕ) (h : s.threads[i]? = none) :
    s.run incl tol [i, i, i, i, i] = s := by
  have first : PState.step incl tol s i = s := by simp only [PState.step, h]
  simp only [PState.run, List.foldl_cons, List.foldl_nil, first]

/-- Specification of a schedule in which no thread is interrupted inside the treatment of one edge: the
list of threads that treat their next edge. -/
def edgeSchedule (bl : List ℕ) : List ℕ := bl.flatMap fun i => [i, i, i, i, i]

/-- **C48** For every interleaving of the threads at the granularity of one edge (in particular for every
order in which whole points are treated, and for the sequential build), every initial content of the shared
arrays and every polygon without zero-length edges: a result that has been stored is the answer of
`polygon_point_belongs`, and a thread that has been scheduled more often than the polygon has edges has
stored its result.  Missing for the full claim: interleavings inside the treatment of one edge
(`C48_counterexample`). -/
theorem C48_edge_schedule_partial (poly points : List (V2 K)) (incl : Bool) (tol : K) (sh : PShared K)
    (bl : List ℕ) (hf : NoFlatEdge poly) :
    let s := (PState.init poly points sh).run incl tol (edgeSchedule bl)
    (∀ (i : ℕ) (b : Bool), s.results[i]? = some (some b) → ∃ pt, points[i]? = some pt ∧
      polygonPointBelongs poly pt incl tol = .ok b) ∧
    (∀ i < points.length, poly.length < bl.count i → ∃ b, s.results[i]? = some (some b)) := by
  intro s
  have hsd : s = (PState.init poly points sh).run incl tol (edgeSchedule bl) := rfl
  clear_value s
  have inv : s.threads.length = points.length ∧ ∀ i th, s.threads[i]? = some th →
      th.Good incl tol (fun pt => polygonPointBelongs poly pt incl tol) ∧ points[i]? = some th.pt ∧
      (th.res = none → th.rest.length + bl.count i = poly.length) := by
    subst s
    induction bl using List.reverseRecOn with
    | nil =>
      refine ⟨by simp [edgeSchedule, PState.run, PState.init], ?_⟩
      intro i th h
      simp only [edgeSchedule, List.flatMap_nil, PState.run, List.foldl_nil, PState.init, List.getElem?_map,
        Option.map_eq_some_iff] at h
      obtain ⟨pt, hpt, rfl⟩ := h
      refine ⟨⟨hf, rfl, rfl⟩, hpt, ?_⟩
      intro _
      have : (rollLeft poly).length = poly.length := by cases poly <;> simp [rollLeft]
      simp [polygonEdges, this]
    | append_singleton bl j ih =>
      have hrun : (PState.init poly points sh).run incl tol (edgeSchedule (bl ++ [j])) =
          ((PState.init poly points sh).run incl tol (edgeSchedule bl)).run incl tol [j, j, j, j, j] := by
        simp only [edgeSchedule, List.flatMap_append, List.flatMap_cons, List.flatMap_nil, List.append_nil,
          PState.run, List.foldl_append]
      rw [hrun]
      generalize (PState.init poly points sh).run incl tol (edgeSchedule bl) = s0 at ih ⊢
      obtain ⟨ih0, ih⟩ := ih
      cases hj : s0.threads[j]? with
      | none =>
        rw [PState.run_none _ _ _ _ hj]
        refine ⟨ih0, ?_⟩
        intro i th h
        obtain ⟨a, b, c⟩ := ih i th h
        refine ⟨a, b, fun hr => ?_⟩
        have hij : j ≠ i := by rintro rfl; rw [hj] at h; simp at h
        rw [List.count_append, List.count_singleton, if_neg (by simpa using hij), add_zero]
        exact c hr
      | some tj =>
        rw [PState.run_block _ _ _ _ _ hj]
        refine ⟨by simpa using ih0, ?_⟩
        intro i th h
        by_cases hij : j = i
        · subst hij
          have hi : j < s0.threads.length := by
            by_contra hc; rw [List.getElem?_eq_none (by omega)] at hj; simp at hj
          dsimp only at h
          rw [List.getElem?_set_self hi] at h
          obtain rfl := Option.some.inj h
          obtain ⟨a, b, c⟩ := ih j tj hj
          obtain ⟨a', b', c'⟩ := PThread.block_good incl tol _ s0.sh tj a
          refine ⟨a', by rw [b']; exact b, fun hr => ?_⟩
          have hnone : tj.res = none := by
            by_contra hne
            obtain ⟨v, hv⟩ := Option.ne_none_iff_exists'.1 hne
            simp [PThread.block, PThread.step_done _ _ _ _ v hv, hv] at hr
          rcases c' hnone with h1 | h1
          · exact absurd hr h1
          · have := c hnone
            rw [List.count_append, List.count_singleton_self]; omega
        · dsimp only at h
          rw [List.getElem?_set_ne hij] at h
          obtain ⟨a, b, c⟩ := ih i th h
          refine ⟨a, b, fun hr => ?_⟩
          rw [List.count_append, List.count_singleton, if_neg (by simpa using hij), add_zero]
          exact c hr
  constructor
  · intro i b hb
    simp only [PState.results, List.getElem?_map, Option.map_eq_some_iff] at hb
    obtain ⟨th, h1, h2⟩ := hb
    obtain ⟨a, hp, _⟩ := inv.2 i th h1
    refine ⟨th.pt, hp, ?_⟩
    have := a.2
    rw [h2] at this
    exact this
  · intro i hi hc
    have hi' : i < s.threads.length := by rw [inv.1]; exact hi
    obtain ⟨a, hp, hr⟩ := inv.2 i s.threads[i] (List.getElem?_eq_getElem hi')
    have : s.threads[i].res ≠ none := by
      intro e
      have := hr e
      omega
    obtain ⟨v, hv⟩ := Option.ne_none_iff_exists'.1 this
    exact ⟨v, by simp [PState.results, List.getElem?_map, List.getElem?_eq_getElem hi', hv]⟩

/-- **C48** as an equality of result arrays: when every thread has been scheduled often enough, the array of
results is the list of answers of `polygon_point_belongs`.  Missing: see `C48_edge_schedule_partial`. -/
theorem C48_batch_eq_single_partial (poly points : List (V2 K)) (incl : Bool) (tol : K) (sh : PShared K)
    (bl : List ℕ) (hf : NoFlatEdge poly) (hb : ∀ i < points.length, poly.length < bl.count i) :
    ((PState.init poly points sh).run incl tol (edgeSchedule bl)).results =
      points.map fun pt => (polygonPointBelongs poly pt incl tol).toOption := by
  obtain ⟨h1, h2⟩ := C48_edge_schedule_partial poly points incl tol sh bl hf
  generalize hs : (PState.init poly points sh).run incl tol (edgeSchedule bl) = s at h1 h2
  have hlen : s.results.length ≤ points.length := by
    by_contra hc
    push Not at hc
    have hlen' : ∀ (sched : List ℕ) (s0 : PState K), (s0.run incl tol sched).threads.length = s0.threads.length := by
      intro sched
      induction sched with
      | nil => intro s0; rfl
      | cons i sched ih =>
        intro s0
        rw [PState.run, List.foldl_cons]
        refine (ih _).trans ?_
        unfold PState.step; split
        · rfl
        · simp
    have := hlen' (edgeSchedule bl) (PState.init poly points sh)
    rw [hs] at this
    simp [PState.results, PState.init] at this hc
    omega
  apply List.ext_getElem?
  intro i
  by_cases hi : i < points.length
  · obtain ⟨b, hb'⟩ := h2 i hi (hb i hi)
    obtain ⟨pt, hp, he⟩ := h1 i b hb'
    rw [hb', List.getElem?_map, hp, Option.map_some, he]; rfl
  · rw [List.getElem?_eq_none (by omega), List.getElem?_eq_none (by simp; omega)]
example : ∀ i < 2, 3 < ([0, 1, 0, 1, 1, 0, 0, 1] : List ℕ).count i := by decide

/-- The full claim of C48: the stored results agree under every schedule, also inside one edge. -/
def C48_full_statement (K : Type) [Field K] [LinearOrder K] : Prop :=
  ∀ (poly points : List (V2 K)) (incl : Bool) (tol : K) (sh : PShared K) (sched : List ℕ), NoFlatEdge poly →
    ∀ (i : ℕ) (b : Bool), ((PState.init poly points sh).run incl tol sched).results[i]? = some (some b) →
      ∃ pt, points[i]? = some pt ∧ polygonPointBelongs poly pt incl tol = .ok b

/-- **C48** is false for interleavings inside the treatment of one edge, because the arrays `u`, `v`,
`projection_point` are shared: the point (1,1) of the pentagon is declared outside when another thread
overwrites `v` between lines 254 and 256. -/
theorem C48_counterexample : ¬ C48_full_statement ℚ := by
  intro h
  obtain ⟨pt, h1, h2⟩ := h [⟨0, 0⟩, ⟨4, 0⟩, ⟨8, 4⟩, ⟨8, 8⟩, ⟨0, 8⟩] [⟨1, 1⟩, ⟨2, 3⟩] false (1 / 10 ^ 6)
    ⟨⟨0, 0⟩, ⟨0, 0⟩, ⟨0, 0⟩⟩ [0, 0, 0, 1, 1, 1, 1, 1, 1, 0, 0] (by unfold NoFlatEdge; decide +kernel) 0 false
    (by decide +kernel)
  simp at h1
  subst h1
  revert h2
  decide +kernel

end
end Volmdlr
