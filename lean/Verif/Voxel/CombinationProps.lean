import Verif.Voxel.CombinationModel
import Verif.Voxel.OctreeTriangles

/-!
# C139: the intersecting faces of two shells
-/

namespace Volmdlr
open Voxel

variable {K : Type} [Field K] [LinearOrder K] [IsStrictOrderedRing K] [FloorRing K]

namespace Voxel

/-! ## The numbers in the leaves -/

/-- The numbers in the leaf at the end of a path. -/
def Oct.itemsAt : ℕ → Oct → List (Fin 8) → List ℕ
  | 0, t, [] => t.items
  | 0, _, _ :: _ => []
  | _ + 1, _, [] => []
  | n + 1, t, i :: p => Oct.itemsAt n (t.child i) p

lemma itemsAt_empty (n : ℕ) (p : List (Fin 8)) : Oct.itemsAt n (.leaf []) p = [] := by
  induction n generalizing p with
  | zero => cases p <;> rfl
  | succ n ih => cases p with
    | nil => rfl
    | cons i p => exact ih p

lemma itemsAt_not_truthy {n : ℕ} {t : Oct} (h : t.truthy = false) (p : List (Fin 8)) : Oct.itemsAt n t p = [] := by
  have : t = .leaf [] := by
    cases t with
    | leaf l => simp [Oct.truthy] at h; rw [h]
    | node ch => simp [Oct.truthy] at h
  rw [this]
  exact itemsAt_empty n p

lemma truthy_of_itemsAt {n : ℕ} {t : Oct} {p : List (Fin 8)} {x : ℕ} (h : x ∈ Oct.itemsAt n t p) : t.truthy = true := by
  by_contra hn
  rw [itemsAt_not_truthy (by simpa using hn)] at h
  cases h

lemma subdivideTriangles_items (vs : K) (n : ℕ) (ts : List (ℕ × Tri3 K)) (c : Fin 3 → K) (p : List (Fin 8)) (x : ℕ) :
    x ∈ Oct.itemsAt n (subdivideTriangles vs n ts c) p ↔ ∃ t ∈ ts, t.1 = x ∧ PathHit vs t.2 n c p := by
  induction n generalizing ts c p with
  | zero =>
    cases p with
    | nil => simp [Oct.itemsAt, subdivideTriangles, Oct.items, PathHit]
    | cons i p => simp [Oct.itemsAt, PathHit]
  | succ n ih =>
    cases p with
    | nil => simp [Oct.itemsAt, PathHit]
    | cons i p =>
      have e : Oct.itemsAt (n + 1) (subdivideTriangles vs (n + 1) ts c) (i :: p) =
          Oct.itemsAt n (if (ts.filter fun t => triangleIntersectsVoxelApi t.2 (childCentre (vs * 2 ^ n) c i) fun _ => vs * 2 ^ n / 2).isEmpty then
            Oct.leaf [] else subdivideTriangles vs n (ts.filter fun t => triangleIntersectsVoxelApi t.2 (childCentre (vs * 2 ^ n) c i) fun _ => vs * 2 ^ n / 2)
              (childCentre (vs * 2 ^ n) c i)) p := by
        show Oct.itemsAt n ((subdivideTriangles vs (n + 1) ts c).child i) p = _
        rw [subdivideTriangles]
        dsimp only
        split_ifs with h1 h2 h2
        · rfl
        · have := h1 i
          rw [if_neg h2] at this
          rw [itemsAt_not_truthy this, itemsAt_not_truthy (by rfl)]
        · simp only [Oct.child, h2, if_true]
        · simp only [Oct.child, h2]
          rfl
      rw [e]
      by_cases hemp : (ts.filter fun t => triangleIntersectsVoxelApi t.2 (childCentre (vs * 2 ^ n) c i) fun _ => vs * 2 ^ n / 2).isEmpty
      · rw [if_pos hemp, itemsAt_empty]
        constructor
        · intro h; cases h
        rintro ⟨t, ht, _, h1, h2⟩
        rw [List.isEmpty_iff, List.filter_eq_nil_iff] at hemp
        exact absurd h1 (hemp t ht)
      · rw [if_neg hemp, ih]
        refine exists_congr fun t => ?_
        rw [List.mem_filter]
        simp only [PathHit]
        tauto

/-- The number `x` is in the leaf of centre `q`. -/
def OctVox.Holds (v : OctVox K) (q : Fin 3 → K) (x : ℕ) : Prop :=
  ∃ p, x ∈ Oct.itemsAt v.depth v.octree p ∧ q = pathCentre (v.size * 2 ^ v.depth) v.rootC p

lemma itemsAt_length {n : ℕ} {t : Oct} {p : List (Fin 8)} {x : ℕ} (h : x ∈ Oct.itemsAt n t p) : p.length = n := by
  induction n generalizing t p with
  | zero => cases p with
    | nil => rfl
    | cons i p => cases h
  | succ n ih => cases p with
    | nil => cases h
    | cons i p => simp [ih h]

lemma increment_holds (v : OctVox K) (h : GoodOctree v) :
    ∃ w, v.increment = .ok w ∧ GoodOctree w ∧ w.depth = v.depth + 1 ∧ w.size = v.size ∧ w.triangles = v.triangles ∧
      ∀ q x, w.Holds q x ↔ v.Holds q x := by
  obtain ⟨w, h1, h2, h3, h4, h5, _⟩ := increment_good v h
  refine ⟨w, h1, h2, h3, h4, h5, fun q x => ?_⟩
  have hw : w = { v with
      octree := .node fun i => .node fun j => if j.val = 7 - i.val then v.octree.child i else .leaf []
      depth := v.depth + 1 } := by
    unfold OctVox.increment at h1
    rw [if_neg (not_not.2 h.centre)] at h1
    injection h1 with h1
    exact h1.symm
  rw [hw]
  unfold OctVox.Holds
  dsimp only
  obtain ⟨m, hm⟩ : ∃ m, v.depth = m + 1 := ⟨v.depth - 1, by have := h.depth; omega⟩
  rw [hm]
  have hcentre : ∀ (i j : Fin 8) (p : List (Fin 8)), j.val = 7 - i.val →
      pathCentre (v.size * 2 ^ (m + 1 + 1)) v.rootC (i :: j :: p) = pathCentre (v.size * 2 ^ (m + 1)) v.rootC (i :: p) := by
    intro i j p hj
    rw [pathCentre, pathCentre, pathCentre]
    have hsz : v.size * 2 ^ (m + 1 + 1) / 2 / 2 = v.size * 2 ^ (m + 1) / 2 := by rw [pow_succ]; ring
    rw [hsz]
    congr 1
    funext a
    unfold childCentre
    have hb : (octBit j a : K) = 1 - octBit i a := by
      have := bit_opposite i j hj a
      have h2 : (octBit i a : K) + octBit j a = 1 := by exact_mod_cast this
      linarith
    rw [hb, pow_succ _ (m + 1)]
    ring
  constructor
  · rintro ⟨p, h1, h2⟩
    match p, h1, h2 with
    | [], h1, _ => cases h1
    | [i], h1, _ => cases h1
    | i :: j :: p, h1, h2 =>
      change x ∈ Oct.itemsAt m (if j.val = 7 - i.val then v.octree.child i else .leaf []) p at h1
      by_cases hj : j.val = 7 - i.val
      · rw [if_pos hj] at h1
        exact ⟨i :: p, h1, by rw [h2, hcentre i j p hj]⟩
      · rw [if_neg hj, itemsAt_empty] at h1
        cases h1
  · rintro ⟨p, h1, h2⟩
    cases p with
    | nil => cases h1
    | cons i p =>
      obtain ⟨j, hj⟩ := opposite_exists i
      refine ⟨i :: j :: p, ?_, by rw [h2, hcentre i j p hj]⟩
      show x ∈ Oct.itemsAt m (if j.val = 7 - i.val then v.octree.child i else .leaf []) p
      rw [if_pos hj]
      exact h1

lemma incrementTimes_holds (k : ℕ) (v : OctVox K) (h : GoodOctree v) :
    ∃ w, v.incrementTimes k = .ok w ∧ GoodOctree w ∧ w.depth = v.depth + k ∧ w.size = v.size ∧ w.triangles = v.triangles ∧
      ∀ q x, w.Holds q x ↔ v.Holds q x := by
  induction k generalizing v with
  | zero => exact ⟨v, rfl, h, rfl, rfl, rfl, fun _ _ => Iff.rfl⟩
  | succ k ih =>
    obtain ⟨w, h1, h2, h3, h4, h5, h6⟩ := increment_holds v h
    obtain ⟨u, g1, g2, g3, g4, g5, g6⟩ := ih w h2
    refine ⟨u, ?_, g2, by omega, g4.trans h4, g5.trans h5, fun q x => (g6 q x).trans (h6 q x)⟩
    rw [OctVox.incrementTimes, h1]
    exact g1

lemma recOp_items (n1 n : ℕ) (a b : Oct) (ha : WF n a) (hb : WF n b) (hn : 0 < n ∨ (a.truthy = true ∧ b.truthy = true)) (p : List (Fin 8)) (x : ℕ) :
    x ∈ Oct.itemsAt n (recOp (intersectionOp n1) n a b) p ↔
      (x ∈ Oct.itemsAt n a p ∨ ∃ y ∈ Oct.itemsAt n b p, x = y + n1) ∧ Oct.itemsAt n a p ≠ [] ∧ Oct.itemsAt n b p ≠ [] := by
  induction n generalizing a b p with
  | zero =>
    obtain ⟨la, rfl⟩ := ha
    obtain ⟨lb, rfl⟩ := hb
    have hn := hn.resolve_left (by omega)
    cases p with
    | nil =>
      simp only [Oct.itemsAt, recOp, intersectionOp, Oct.items, List.mem_append, List.mem_map]
      simp only [Oct.truthy, Bool.not_eq_true', List.isEmpty_eq_false_iff] at hn
      constructor
      · rintro (h | ⟨y, h1, h2⟩)
        · exact ⟨Or.inl h, hn⟩
        · exact ⟨Or.inr ⟨y, h1, h2.symm⟩, hn⟩
      · rintro ⟨h | ⟨y, h1, h2⟩, _⟩
        · exact Or.inl h
        · exact Or.inr ⟨y, h1, h2.symm⟩
    | cons i p => simp [Oct.itemsAt]
  | succ n ih =>
    cases p with
    | nil => simp [Oct.itemsAt]
    | cons i p =>
      show x ∈ Oct.itemsAt n (if (a.child i).truthy && (b.child i).truthy then recOp (intersectionOp n1) n (a.child i) (b.child i)
        else if (a.child i).truthy && false then recOp (intersectionOp n1) n (a.child i) (emptyAt n)
        else if (b.child i).truthy && false then recOp (intersectionOp n1) n (emptyAt n) (b.child i)
        else .leaf []) p ↔ (x ∈ Oct.itemsAt n (a.child i) p ∨ ∃ y ∈ Oct.itemsAt n (b.child i) p, x = y + n1) ∧
          Oct.itemsAt n (a.child i) p ≠ [] ∧ Oct.itemsAt n (b.child i) p ≠ []
      by_cases hab : (a.child i).truthy = true ∧ (b.child i).truthy = true
      · rw [if_pos (by rw [hab.1, hab.2]; rfl)]
        exact ih _ _ (ha.child i) (hb.child i) (Or.inr hab) p
      · rw [if_neg (by rw [Bool.and_eq_true]; exact hab), Bool.and_false, Bool.and_false, if_neg (by simp), if_neg (by simp), itemsAt_empty]
        constructor
        · intro h; cases h
        · rintro ⟨_, h1, h2⟩
          exfalso
          apply hab
          constructor
          · by_contra hf
            exact h1 (itemsAt_not_truthy (by simpa using hf) p)
          · by_contra hf
            exact h2 (itemsAt_not_truthy (by simpa using hf) p)

lemma mem_combinations2 {l : List ℕ} {x y : ℕ} (h : (x, y) ∈ combinations2 l) : x ∈ l ∧ y ∈ l := by
  induction l with
  | nil => cases h
  | cons z zs ih =>
    rw [combinations2, List.mem_append, List.mem_map] at h
    rcases h with ⟨w, hw, he⟩ | h
    · cases he
      exact ⟨List.mem_cons_self, List.mem_cons_of_mem _ hw⟩
    · exact ⟨List.mem_cons_of_mem _ (ih h).1, List.mem_cons_of_mem _ (ih h).2⟩

lemma combinations2_of_mem {l : List ℕ} {x y : ℕ} (hx : x ∈ l) (hy : y ∈ l) (hne : x ≠ y) :
    (x, y) ∈ combinations2 l ∨ (y, x) ∈ combinations2 l := by
  induction l with
  | nil => cases hx
  | cons z zs ih =>
    rw [combinations2, List.mem_append, List.mem_append, List.mem_map, List.mem_map]
    rcases List.mem_cons.1 hx with rfl | hx'
    · rcases List.mem_cons.1 hy with rfl | hy'
      · exact absurd rfl hne
      · exact Or.inl (Or.inl ⟨y, hy', rfl⟩)
    · rcases List.mem_cons.1 hy with rfl | hy'
      · exact Or.inr (Or.inl ⟨x, hx', rfl⟩)
      · rcases ih hx' hy' with h | h
        · exact Or.inl (Or.inr h)
        · exact Or.inr (Or.inr h)

lemma mem_leafCombinations {threshold : ℕ} (ht : threshold ≠ 0) (l : List ℕ) (x y : ℕ) :
    (x, y) ∈ leafCombinations threshold l ↔ x ∈ l ∧ y ∈ l ∧ x < threshold ∧ threshold ≤ y := by
  unfold leafCombinations
  rw [List.mem_filter, List.mem_map]
  simp only [ht, decide_false, Bool.false_or, Bool.and_eq_true, decide_eq_true_eq]
  constructor
  · rintro ⟨⟨⟨a, b⟩, hab, he⟩, h1, h2⟩
    simp only [Prod.mk.injEq] at he
    obtain ⟨ha, hb⟩ := mem_combinations2 hab
    refine ⟨?_, ?_, h1, h2⟩
    · rcases min_choice a b with h | h <;> rw [h] at he <;> rw [← he.1] <;> assumption
    · rcases max_choice a b with h | h <;> rw [h] at he <;> rw [← he.2] <;> assumption
  · rintro ⟨hx, hy, h1, h2⟩
    refine ⟨?_, h1, h2⟩
    have hlt : x < y := by omega
    rcases combinations2_of_mem hx hy hlt.ne with h | h
    · exact ⟨_, h, by simp [min_eq_left hlt.le, max_eq_right hlt.le]⟩
    · exact ⟨_, h, by simp [min_eq_right hlt.le, max_eq_left hlt.le]⟩

lemma leafPairs_iff {threshold : ℕ} (ht : threshold ≠ 0) (n : ℕ) (size : K) (c : Fin 3 → K) (t : Oct) (x y : ℕ) (q : Fin 3 → K) :
    ((x, y), q) ∈ leafPairs threshold n size c t ↔
      x < threshold ∧ threshold ≤ y ∧ ∃ p, x ∈ Oct.itemsAt n t p ∧ y ∈ Oct.itemsAt n t p ∧ q = pathCentre size c p := by
  induction n generalizing size c t with
  | zero =>
    rw [leafPairs, Set.mem_ofPred_eq, mem_leafCombinations ht]
    dsimp only
    constructor
    · rintro ⟨⟨h1, h2, h3, h4⟩, rfl⟩
      exact ⟨h3, h4, [], h1, h2, rfl⟩
    · rintro ⟨h1, h2, p, h3, h4, h5⟩
      cases p with
      | nil => exact ⟨⟨h3, h4, h1, h2⟩, h5⟩
      | cons i p => cases h3
  | succ n ih =>
    rw [leafPairs, Set.mem_ofPred_eq]
    constructor
    · rintro ⟨i, _, h⟩
      obtain ⟨h1, h2, p, h3, h4, h5⟩ := (ih _ _ _).1 h
      exact ⟨h1, h2, i :: p, h3, h4, h5⟩
    · rintro ⟨h1, h2, p, h3, h4, h5⟩
      cases p with
      | nil => cases h3
      | cons i p => exact ⟨i, truthy_of_itemsAt (n := n) h3, (ih _ _ _).2 ⟨h1, h2, p, h3, h4, h5⟩⟩

/-- The pairs of the intersection of two octrees. -/
lemma intersection_pairs (v w : OctVox K) (hv : GoodOctree v) (hw : GoodOctree w) (hs : v.size = w.size) (ht : v.triangles ≠ 0)
    (hx : ∀ q x, v.Holds q x → x < v.triangles) :
    ∃ r, v.intersection w = .ok r ∧ ∀ x y q, ((x, y), q) ∈ r.pairs v.triangles ↔ v.Holds q x ∧ ∃ z, y = z + v.triangles ∧ w.Holds q z := by
  obtain ⟨v', h1, h2, h3, h4, h5, h6⟩ := incrementTimes_holds (w.depth - v.depth) v hv
  obtain ⟨w', g1, g2, g3, g4, g5, g6⟩ := incrementTimes_holds (v.depth - w.depth) w hw
  have hd : w'.depth = v'.depth := by omega
  have hsz : w'.size = v'.size := by rw [g4, h4, hs]
  have hsame : sameDepth v w = .ok (v', w') := by
    unfold sameDepth
    rw [if_neg (not_not.2 hs), h1, g1]
  refine ⟨⟨recOp (intersectionOp v'.triangles) v'.depth v'.octree w'.octree, fun _ => 0, v'.depth, v'.size, v.triangles + w.triangles⟩, ?_, fun x y q => ?_⟩
  · unfold OctVox.intersection OctVox.boolOp
    rw [hsame]
  · unfold OctVox.pairs
    dsimp only
    rw [leafPairs_iff ht, h5]
    have hwf : WF v'.depth w'.octree := hd ▸ g2.wf
    simp only [recOp_items _ _ _ _ h2.wf hwf (Or.inl h2.depth)]
    have hpos : 0 < v'.size * 2 ^ v'.depth := mul_pos h2.size (pow_pos two_pos _)
    have holdsV : ∀ p x, x ∈ Oct.itemsAt v'.depth v'.octree p → v.Holds (pathCentre (v'.size * 2 ^ v'.depth) (fun _ => 0) p) x := by
      intro p x h
      exact (h6 _ _).1 ⟨p, h, by rw [h2.centre]⟩
    have holdsW : ∀ p x, x ∈ Oct.itemsAt v'.depth w'.octree p → w.Holds (pathCentre (v'.size * 2 ^ v'.depth) (fun _ => 0) p) x := by
      intro p x h
      exact (g6 _ _).1 ⟨p, hd ▸ h, by rw [g2.centre, hd, hsz]⟩
    constructor
    · rintro ⟨hlt, hle, p, ⟨h7, _⟩, ⟨h8, _⟩, rfl⟩
      constructor
      · rcases h7 with h7 | ⟨z, _, h7⟩
        · exact holdsV p x h7
        · omega
      · rcases h8 with h8 | ⟨z, h8, h9⟩
        · exact absurd (hx _ _ (holdsV p y h8)) (by omega)
        · exact ⟨z, h9, holdsW p z h8⟩
    · rintro ⟨hxv, z, rfl, hzw⟩
      have hlt := hx _ _ hxv
      obtain ⟨p, hp, hq⟩ := (h6 _ _).2 hxv
      obtain ⟨p', hp', hq'⟩ := (g6 _ _).2 hzw
      rw [h2.centre] at hq
      rw [g2.centre, hd, hsz] at hq'
      rw [hd] at hp'
      have hpp : p = p' := by
        refine pathCentre_inj (v'.size * 2 ^ v'.depth) hpos (fun _ => 0) p p' ?_ (hq.symm.trans hq')
        rw [itemsAt_length hp, itemsAt_length hp']
      subst hpp
      have hn1 := List.ne_nil_of_mem hp
      have hn2 := List.ne_nil_of_mem hp'
      exact ⟨hlt, by omega, p, ⟨Or.inl hp, hn1, hn2⟩, ⟨Or.inr ⟨z, hp', rfl⟩, hn1, hn2⟩, hq⟩

/-- The numbers in the leaves of the octree of a list of triangles. -/
lemma fromTriangles_holds (l : List (Tri3 K)) (hl : l ≠ []) {vs : K} (hvs : 0 < vs) :
    ∃ v, OctVox.fromTriangles l vs = .ok v ∧ v.size = vs ∧ v.triangles = l.length ∧ GoodOctree v ∧
      (∀ q x, v.Holds q x → ∃ k t, q = voxelCentre vs k ∧ l[x]? = some t ∧ NearVoxel vs t k) ∧
      (∀ k x t, l[x]? = some t → MeetsVoxel vs t k → v.Holds (voxelCentre vs k) x) := by
  obtain ⟨v, h1, h2, h3, h4, _⟩ := octree_spec l hl hvs
  refine ⟨v, h1, h2, h3, h4, ?_⟩
  rcases l with _ | ⟨r, rs⟩
  · exact absurd rfl hl
  obtain ⟨E, hE, hcov⟩ := depth_covers hvs (trianglesMin r rs) (trianglesMax r rs) (trianglesMin_le_max r rs)
  have hv : v = ⟨subdivideTriangles vs (octreeDepthTriangles vs (trianglesMin r rs) (trianglesMax r rs))
      ((List.range (r :: rs).length).zip (r :: rs)) fun _ => 0, fun _ => 0, octreeDepthTriangles vs (trianglesMin r rs) (trianglesMax r rs), vs, (r :: rs).length⟩ := by
    cases h1
    rfl
  rw [hE] at hv
  have hzip : ∀ x t, (x, t) ∈ (List.range (r :: rs).length).zip (r :: rs) ↔ (r :: rs)[x]? = some t := by
    intro x t
    rw [List.mem_iff_getElem?]
    constructor
    · rintro ⟨n, hn⟩
      rw [List.getElem?_zip_eq_some] at hn
      obtain ⟨h5, h6⟩ := hn
      obtain ⟨h7, h8⟩ := List.getElem?_eq_some_iff.1 h5
      rw [List.getElem_range] at h8
      dsimp only at h8 h6
      rw [← h8]
      exact h6
    · intro h
      refine ⟨x, ?_⟩
      rw [List.getElem?_zip_eq_some]
      refine ⟨?_, h⟩
      exact List.getElem?_range (List.getElem?_eq_some_iff.1 h).1
  have hholds : ∀ q x, v.Holds q x ↔ ∃ t p, (r :: rs)[x]? = some t ∧ PathHit vs t (E + 1) (fun _ => 0) p ∧ q = pathCentre (vs * 2 ^ (E + 1)) (fun _ => 0) p := by
    intro q x
    rw [hv]
    unfold OctVox.Holds
    dsimp only
    simp only [subdivideTriangles_items]
    constructor
    · rintro ⟨p, ⟨⟨y, t⟩, ht, rfl, hh⟩, hq⟩
      exact ⟨t, p, (hzip _ _).1 ht, hh, hq⟩
    · rintro ⟨t, p, ht, hh, hq⟩
      exact ⟨p, ⟨(x, t), (hzip _ _).2 ht, rfl, hh⟩, hq⟩
  constructor
  · intro q x hq
    obtain ⟨t, p, ht, hhit, rfl⟩ := (hholds q x).1 hq
    have hlen : p.length = E + 1 := by
      have : ∀ (n : ℕ) (c : Fin 3 → K) (p : List (Fin 8)), PathHit vs t n c p → p.length = n := by
        intro n
        induction n with
        | zero => intro c p h; cases p with
          | nil => rfl
          | cons i p => cases h
        | succ n ih => intro c p h; cases p with
          | nil => cases h
          | cons i p => simp [ih _ _ h.2]
      exact this _ _ _ hhit
    have hg := path_onGrid vs (E + 1) (fun _ => 0) p hlen
    have htest := pathHit_last (Nat.succ_pos E) hhit
    generalize pathCentre (vs * 2 ^ (E + 1)) (fun _ => 0) p = q at *
    obtain ⟨k, rfl⟩ := onGrid_voxel hg
    refine ⟨k, t, rfl, ht, fun i => ?_⟩
    have := api_near (by linarith) htest i
    unfold voxelCentre at this
    rw [show ((k i : K) + 1 / 2) * vs - vs / 2 = k i * vs by ring, show ((k i : K) + 1 / 2) * vs + vs / 2 = (k i + 1) * vs by ring] at this
    exact this
  · intro k x t ht hk
    have hmem : t ∈ r :: rs := List.mem_of_getElem? ht
    have hgrid : OnGrid vs (E + 1) (fun _ => 0) (voxelCentre vs k) := by
      refine near_onGrid hvs hcov fun i => ?_
      have h5 := meets_near hk i
      exact ⟨h5.1.trans (le_trianglesMax r rs i t hmem), (trianglesMin_le r rs i t hmem).trans h5.2⟩
    obtain ⟨p, _, hp, hhit⟩ := onGrid_path hvs _ _ _ hgrid
    exact (hholds _ _).2 ⟨t, p, ht, hhit t hk, hp.symm⟩

lemma mem_enum {α : Type} (l : List α) (i : ℕ) (a : α) : (i, a) ∈ (List.range l.length).zip l ↔ l[i]? = some a := by
  rw [List.mem_iff_getElem?]
  constructor
  · rintro ⟨n, hn⟩
    rw [List.getElem?_zip_eq_some] at hn
    obtain ⟨h5, h6⟩ := hn
    obtain ⟨h7, h8⟩ := List.getElem?_eq_some_iff.1 h5
    rw [List.getElem_range] at h8
    dsimp only at h8 h6
    rw [← h8]
    exact h6
  · intro h
    refine ⟨i, ?_⟩
    rw [List.getElem?_zip_eq_some]
    exact ⟨List.getElem?_range (List.getElem?_eq_some_iff.1 h).1, h⟩

lemma faceOfTriangle_mem {faces : List (List (Tri3 K))} {t : Tri3 K} {i : ℕ} (h : faceOfTriangle faces t = some i) :
    ∃ f, faces[i]? = some f ∧ t ∈ f := by
  unfold faceOfTriangle at h
  rw [Option.map_eq_some_iff] at h
  obtain ⟨⟨j, f⟩, hf, rfl⟩ := h
  have h1 := List.mem_of_find?_eq_some hf
  have h2 := List.find?_some hf
  rw [List.mem_reverse] at h1
  exact ⟨f, (mem_enum _ _ _).1 h1, by simpa using h2⟩

lemma faceOfTriangle_isSome {faces : List (List (Tri3 K))} {t : Tri3 K} (h : t ∈ faces.flatten) : ∃ i, faceOfTriangle faces t = some i := by
  obtain ⟨f, hf, ht⟩ := List.mem_flatten.1 h
  obtain ⟨i, hi⟩ := List.mem_iff_getElem?.1 hf
  unfold faceOfTriangle
  have : (((List.range faces.length).zip faces).reverse.find? fun f : ℕ × List (Tri3 K) => decide (t ∈ f.2)).isSome := by
    rw [List.find?_isSome]
    exact ⟨(i, f), by rw [List.mem_reverse]; exact (mem_enum _ _ _).2 hi, by simpa using ht⟩
  obtain ⟨x, hx⟩ := Option.isSome_iff_exists.1 this
  exact ⟨x.1, by rw [hx]; rfl⟩

end Voxel

/-! ## Specification -/

/-- **Specification.** The face `i` of the shell (a list of faces, each a list of triangles) has the triangle. -/
def HasTriangle (faces : List (List (Tri3 K))) (i : ℕ) (t : Tri3 K) : Prop := ∃ f, faces[i]? = some f ∧ t ∈ f

/-- **Specification.** No triangle belongs to two faces of the shell. -/
def DistinctFaces (faces : List (List (Tri3 K))) : Prop := ∀ i j t, HasTriangle faces i t → HasTriangle faces j t → i = j

/-- **C139, full statement.** The result has each pair of faces that share a point, with a voxel that contains the point. -/
def C139_full_statement (K : Type) [Field K] [LinearOrder K] [IsStrictOrderedRing K] [FloorRing K] : Prop :=
  ∀ (faces1 faces2 : List (List (Tri3 K))), faces1.flatten ≠ [] → faces2.flatten ≠ [] → ∀ vs : K, 0 < vs →
    ∃ R, intersectingFaces faces1 faces2 vs = .ok R ∧
      ∀ i j t r p, HasTriangle faces1 i t → HasTriangle faces2 j r → TriContains t p → TriContains r p →
        ∃ q, ((i, j), q) ∈ R ∧ InVoxel vs q p

namespace Voxel

/-- The result in terms of the triangles. -/
lemma intersectingFaces_spec (faces1 faces2 : List (List (Tri3 K))) (h1 : faces1.flatten ≠ []) (h2 : faces2.flatten ≠ []) {vs : K} (hvs : 0 < vs) :
    ∃ R, intersectingFaces faces1 faces2 vs = .ok R ∧
      (∀ i j q, ((i, j), q) ∈ R → ∃ k t r, q = voxelCentre vs k ∧ faceOfTriangle faces1 t = some i ∧ faceOfTriangle faces2 r = some j ∧
        NearVoxel vs t k ∧ NearVoxel vs r k) ∧
      (∀ i j t r k, t ∈ faces1.flatten → r ∈ faces2.flatten → faceOfTriangle faces1 t = some i → faceOfTriangle faces2 r = some j →
        MeetsVoxel vs t k → MeetsVoxel vs r k → ((i, j), voxelCentre vs k) ∈ R) := by
  obtain ⟨v, v1, v2, v3, v4, v5, v6⟩ := fromTriangles_holds faces1.flatten h1 hvs
  obtain ⟨w, w1, w2, w3, w4, w5, w6⟩ := fromTriangles_holds faces2.flatten h2 hvs
  have hlt : ∀ q x, v.Holds q x → x < v.triangles := by
    intro q x hx
    obtain ⟨k, t, _, ht, _⟩ := v5 q x hx
    rw [v3]
    exact (List.getElem?_eq_some_iff.1 ht).1
  have hne : v.triangles ≠ 0 := by rw [v3]; exact fun h => h1 (List.length_eq_zero_iff.1 h)
  obtain ⟨r, r1, r2⟩ := intersection_pairs v w v4 w4 (v2.trans w2.symm) hne hlt
  have hall : ∀ e ∈ r.pairs v.triangles, (faces1.flatten[e.1.1]?.bind (faceOfTriangle faces1)).isSome ∧
      (faces2.flatten[e.1.2 - faces1.flatten.length]?.bind (faceOfTriangle faces2)).isSome := by
    rintro ⟨⟨x, y⟩, q⟩ he
    obtain ⟨hx, z, rfl, hz⟩ := (r2 x y q).1 he
    obtain ⟨_, t, _, ht, _⟩ := v5 q x hx
    obtain ⟨_, t', _, ht', _⟩ := w5 q z hz
    dsimp only
    rw [← v3, Nat.add_sub_cancel, ht, ht']
    obtain ⟨i, hi⟩ := faceOfTriangle_isSome (List.mem_of_getElem? ht)
    obtain ⟨j, hj⟩ := faceOfTriangle_isSome (List.mem_of_getElem? ht')
    simp [hi, hj]
  refine ⟨{e | ∃ i j, ((i, j), e.2) ∈ r.pairs v.triangles ∧ faces1.flatten[i]?.bind (faceOfTriangle faces1) = some e.1.1 ∧
    faces2.flatten[j - faces1.flatten.length]?.bind (faceOfTriangle faces2) = some e.1.2}, ?_, ?_, ?_⟩
  · unfold intersectingFaces
    rw [v1, w1]
    dsimp only
    rw [r1]
    exact if_pos hall
  · rintro i j q ⟨x, y, he, hi, hj⟩
    obtain ⟨hx, z, rfl, hz⟩ := (r2 x y q).1 he
    obtain ⟨k, t, hq, ht, hn⟩ := v5 q x hx
    obtain ⟨k', t', hq', ht', hn'⟩ := w5 q z hz
    rw [ht] at hi
    rw [← v3, Nat.add_sub_cancel, ht'] at hj
    have : k = k' := voxelCentre_inj hvs (hq.symm.trans hq')
    subst this
    exact ⟨k, t, t', hq, hi, hj, hn, hn'⟩
  · intro i j t t' k ht ht' hi hj hm hm'
    obtain ⟨x, hx⟩ := List.mem_iff_getElem?.1 ht
    obtain ⟨z, hz⟩ := List.mem_iff_getElem?.1 ht'
    refine ⟨x, z + v.triangles, (r2 _ _ _).2 ⟨v6 k x t hx hm, z, rfl, w6 k z t' hz hm'⟩, ?_, ?_⟩
    · rw [hx]; exact hi
    · rw [← v3, Nat.add_sub_cancel, hz]; exact hj

end Voxel

/-- **C139 (never misses).** For shells without a triangle that belongs to two faces, `intersecting_faces_combinations` finds each
pair of faces whose triangles share a point, together with a voxel that contains this point. -/
theorem C139_never_misses_partial (faces1 faces2 : List (List (Tri3 K))) (h1 : faces1.flatten ≠ []) (h2 : faces2.flatten ≠ [])
    (d1 : DistinctFaces faces1) (d2 : DistinctFaces faces2) {vs : K} (hvs : 0 < vs) :
    ∃ R, intersectingFaces faces1 faces2 vs = .ok R ∧
      ∀ i j t r p, HasTriangle faces1 i t → HasTriangle faces2 j r → TriContains t p → TriContains r p →
        ∃ q, ((i, j), q) ∈ R ∧ InVoxel vs q p := by
  obtain ⟨R, hR, _, hin⟩ := intersectingFaces_spec faces1 faces2 h1 h2 hvs
  refine ⟨R, hR, fun i j t r p hi hj ht hr => ?_⟩
  have face : ∀ (faces : List (List (Tri3 K))), DistinctFaces faces → ∀ i t, HasTriangle faces i t → t ∈ faces.flatten ∧ faceOfTriangle faces t = some i := by
    intro faces hd i t h
    have hm : t ∈ faces.flatten := by
      obtain ⟨f, hf, ht⟩ := h
      exact List.mem_flatten.2 ⟨f, List.mem_of_getElem? hf, ht⟩
    obtain ⟨j, hj⟩ := faceOfTriangle_isSome hm
    refine ⟨hm, ?_⟩
    rw [hd i j t h (faceOfTriangle_mem hj)]
    exact hj
  have hbox := (gridCentre_in vs hvs p).1
  have hc : gridCentre vs p = voxelCentre vs fun i => ⌊p i / vs⌋ := rfl
  rw [hc] at hbox
  exact ⟨_, hin i j t r _ (face _ d1 i t hi).1 (face _ d2 j r hj).1 (face _ d1 i t hi).2 (face _ d2 j r hj).2 ⟨p, ht, hbox⟩ ⟨p, hr, hbox⟩, hbox⟩

/-- **C139 (no far faces).** Each voxel listed for a pair of faces is a voxel of the grid that shares a point with the bounding box
of a triangle of the first face and with that of a triangle of the second face. -/
theorem C139_no_far_faces (faces1 faces2 : List (List (Tri3 K))) (h1 : faces1.flatten ≠ []) (h2 : faces2.flatten ≠ []) {vs : K} (hvs : 0 < vs) :
    ∃ R, intersectingFaces faces1 faces2 vs = .ok R ∧
      ∀ i j q, ((i, j), q) ∈ R → ∃ k t r, q = voxelCentre vs k ∧ HasTriangle faces1 i t ∧ HasTriangle faces2 j r ∧ NearVoxel vs t k ∧ NearVoxel vs r k := by
  obtain ⟨R, hR, hout, _⟩ := intersectingFaces_spec faces1 faces2 h1 h2 hvs
  refine ⟨R, hR, fun i j q hq => ?_⟩
  obtain ⟨k, t, r, hk, ht, hr, hn, hn'⟩ := hout i j q hq
  exact ⟨k, t, r, hk, faceOfTriangle_mem ht, faceOfTriangle_mem hr, hn, hn'⟩

/-- **C139 is false for faces with the same triangles.** The triangles are the keys of a dictionary: a face all of whose triangles are
also in later faces of the shell is never reported. -/
theorem C139_shared_triangle_counterexample : ¬ C139_full_statement K := by
  intro hall
  let t : Tri3 K := (fun _ => 0, fun _ => 0, fun _ => 0)
  have hp : TriContains t fun _ => 0 := ⟨1, 0, 0, zero_le_one, le_rfl, le_rfl, by simp, by simp [t]⟩
  obtain ⟨R, hR, h⟩ := hall [[t], [t]] [[t]] (by simp) (by simp) 1 one_pos
  obtain ⟨R', hR', hout, _⟩ := intersectingFaces_spec [[t], [t]] [[t]] (by simp) (by simp) (one_pos : (0 : K) < 1)
  have e : R = R' := by
    have := hR.symm.trans hR'
    injection this
  obtain ⟨q, hq, _⟩ := h 0 0 t t _ ⟨[t], rfl, by simp⟩ ⟨[t], rfl, by simp⟩ hp hp
  rw [e] at hq
  obtain ⟨k, r, r', _, hr, _⟩ := hout 0 0 q hq
  obtain ⟨f, hf, hrf⟩ := faceOfTriangle_mem hr
  have hrt : r = t := by
    have : f = [t] := by simpa using hf.symm
    rw [this] at hrf
    exact List.mem_singleton.1 hrf
  subst hrt
  have : faceOfTriangle [[t], [t]] t = some 1 := by
    simp [faceOfTriangle, List.range, List.range.loop]
  rw [this] at hr
  cases hr

/-- Two shells of two faces each without a common triangle of their faces. -/
example : DistinctFaces ([[(![0, 0, 0], ![1, 0, 0], ![0, 1, 0])], [(![0, 0, 0], ![1, 0, 0], ![0, 0, 1])]] : List (List (Tri3 ℚ))) := by
  have hne : ((![0, 0, 0], ![1, 0, 0], ![0, 1, 0]) : Tri3 ℚ) ≠ (![0, 0, 0], ![1, 0, 0], ![0, 0, 1]) := by decide +kernel
  rintro (_ | _ | i) (_ | _ | j) t ⟨f, hf, ht⟩ ⟨g, hg, ht'⟩
  · rfl
  · simp at hf hg; subst hf; subst hg; exact absurd ((List.mem_singleton.1 ht).symm.trans (List.mem_singleton.1 ht')) hne
  · simp at hg
  · simp at hf hg; subst hf; subst hg; exact absurd ((List.mem_singleton.1 ht').symm.trans (List.mem_singleton.1 ht)) hne
  · rfl
  · simp at hg
  · simp at hf
  · simp at hf
  · simp at hf

end Volmdlr
