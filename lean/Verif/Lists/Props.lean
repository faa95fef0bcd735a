import Verif.Lists.Model
import Verif.Segment.Props

/-!
# C11, C12, C13, C58: list helpers, equality and hashing
-/

namespace Volmdlr

/-! ## C11 -/

theorem nearest_fold {α : Type*} (d : α → ℝ) (l : List α) (m : α) :
    ∃ r, (l.foldl (fun (st : ℝ × α) p => if d p < st.1 then (d p, p) else st) (d m, m)) = (d r, r) ∧
      ((r = m ∧ ∀ q ∈ l, d m ≤ d q) ∨
        (d r < d m ∧ ∃ l1 l2, l = l1 ++ r :: l2 ∧ (∀ q ∈ l1, d r < d q) ∧ ∀ q ∈ l2, d r ≤ d q)) := by
  induction l generalizing m with
  | nil => exact ⟨m, rfl, Or.inl ⟨rfl, by simp⟩⟩
  | cons a l ih =>
    rw [List.foldl_cons]
    by_cases h : d a < d m
    · simp only [h, if_true]
      obtain ⟨r, e, hr⟩ := ih a
      refine ⟨r, e, Or.inr ?_⟩
      rcases hr with ⟨rfl, hq⟩ | ⟨hlt, l1, l2, rfl, h1, h2⟩
      · exact ⟨h, [], l, rfl, by simp, hq⟩
      · refine ⟨hlt.trans h, a :: l1, l2, rfl, ?_, h2⟩
        intro q hq
        rcases List.mem_cons.1 hq with rfl | hq
        · exact hlt
        · exact h1 q hq
    · simp only [h, if_false]
      obtain ⟨r, e, hr⟩ := ih m
      refine ⟨r, e, ?_⟩
      push Not at h
      rcases hr with ⟨rfl, hq⟩ | ⟨hlt, l1, l2, rfl, h1, h2⟩
      · exact Or.inl ⟨rfl, by simpa [h] using hq⟩
      · refine Or.inr ⟨hlt, a :: l1, l2, rfl, ?_, h2⟩
        intro q hq
        rcases List.mem_cons.1 hq with rfl | hq
        · exact hlt.trans_le h
        · exact h1 q hq

/-- **C11** `Point2D.nearest_point`: raises exactly on the empty list; otherwise the answer is the first
element of the list at minimum distance. -/
theorem C11_nearest_point2d (self : V2 ℝ) (l : List (V2 ℝ)) :
    (l = [] ↔ nearestPoint2d self l = .error .indexError) ∧
    (l ≠ [] → ∃ p l1 l2, nearestPoint2d self l = .ok p ∧ l = l1 ++ p :: l2 ∧
      (∀ q ∈ l1, V2.norm (p - self) < V2.norm (q - self)) ∧
      ∀ q ∈ l, V2.norm (p - self) ≤ V2.norm (q - self)) := by
  cases l with
  | nil => simp [nearestPoint2d]
  | cons p0 ps =>
    refine ⟨by simp [nearestPoint2d], fun _ => ?_⟩
    obtain ⟨r, e, hr⟩ := nearest_fold (fun p : V2 ℝ => V2.norm (p - self)) (p0 :: ps) p0
    refine ⟨r, ?_⟩
    have e' : nearestPoint2d self (p0 :: ps) = .ok r := by
      simp only [nearestPoint2d]
      exact congrArg (fun x : ℝ × V2 ℝ => Except.ok x.2) e
    rcases hr with ⟨rfl, hq⟩ | ⟨-, l1, l2, hl, h1, h2⟩
    · exact ⟨[], ps, e', rfl, by simp, hq⟩
    · refine ⟨l1, l2, e', hl, h1, ?_⟩
      intro q hq
      rw [hl] at hq
      rcases List.mem_append.1 hq with hq | hq
      · exact (h1 q hq).le
      · rcases List.mem_cons.1 hq with rfl | hq
        · exact le_rfl
        · exact h2 q hq

/-- **C11** `Point3D.nearest_point`: `None` exactly on the empty list; otherwise the answer is the first
element of the list at minimum distance. -/
theorem C11_nearest_point3d (self : V3 ℝ) (l : List (V3 ℝ)) :
    (l = [] ↔ nearestPoint3d self l = none) ∧
    (l ≠ [] → ∃ p l1 l2, nearestPoint3d self l = some p ∧ l = l1 ++ p :: l2 ∧
      (∀ q ∈ l1, V3.norm (p - self) < V3.norm (q - self)) ∧
      ∀ q ∈ l, V3.norm (p - self) ≤ V3.norm (q - self)) := by
  have gen : ∀ (l : List (V3 ℝ)) (m : V3 ℝ), (l.foldl (fun (st : Option (ℝ × V3 ℝ)) point =>
      let distance := V3.norm (point - self)
      match st with
      | none => some (distance, point)
      | some (m, c) => if distance < m then some (distance, point) else some (m, c)) (some (V3.norm (m - self), m))) =
      some (l.foldl (fun (st : ℝ × V3 ℝ) p => if V3.norm (p - self) < st.1 then (V3.norm (p - self), p) else st)
        (V3.norm (m - self), m)) := by
    intro l
    induction l with
    | nil => intro m; rfl
    | cons a l ih =>
      intro m
      rw [List.foldl_cons, List.foldl_cons]
      dsimp only
      split
      · exact ih a
      · exact ih m
  cases l with
  | nil => simp [nearestPoint3d]
  | cons p0 ps =>
    obtain ⟨r, e, hr⟩ := nearest_fold (fun p : V3 ℝ => V3.norm (p - self)) ps p0
    have e' : nearestPoint3d self (p0 :: ps) = some r := by
      have h1 := congrArg (Option.map Prod.snd) (gen ps p0)
      exact h1.trans (congrArg (fun x : ℝ × V3 ℝ => some x.2) e)
    refine ⟨by simp [e'], fun _ => ⟨r, ?_⟩⟩
    rcases hr with ⟨rfl, hq⟩ | ⟨hlt, l1, l2, hl, h1, h2⟩
    · refine ⟨[], ps, e', rfl, by simp, ?_⟩
      intro q hq'
      rcases List.mem_cons.1 hq' with rfl | hq'
      · exact le_rfl
      · exact hq q hq'
    · refine ⟨p0 :: l1, l2, e', by rw [hl]; rfl, ?_, ?_⟩
      · intro q hq
        rcases List.mem_cons.1 hq with rfl | hq
        · exact hlt
        · exact h1 q hq
      · intro q hq
        rcases List.mem_cons.1 hq with rfl | hq
        · exact hlt.le
        · rw [hl] at hq
          rcases List.mem_append.1 hq with hq | hq
          · exact (h1 q hq).le
          · rcases List.mem_cons.1 hq with rfl | hq
            · exact le_rfl
            · exact h2 q hq
example : ([⟨1, 0⟩, ⟨0, 2⟩] : List (V2 ℝ)) ≠ [] := by simp

/-- **C12** `in_list` answers whether some point of the list is at distance at most `tol`. -/
theorem C12_in_list (p : V3 ℝ) (l : List (V3 ℝ)) (tol : ℝ) (ht : 0 ≤ tol) :
    point3dInList p l tol = true ↔ ∃ q ∈ l, V3.norm (q - p) ≤ tol := by
  simp only [point3dInList, List.any_eq_true, decide_eq_true_eq]
  refine exists_congr fun q => and_congr_right fun _ => ?_
  have h := V3.norm_sq (q - p)
  have h0 := V3.norm_nonneg (q - p)
  simp only [V3.dot, V3.sub_x, V3.sub_y, V3.sub_z] at h
  rw [← h]
  constructor
  · intro hh; nlinarith
  · intro hh; exact mul_le_mul hh hh h0 ht
/-- **C12** the same in 2D. -/
theorem C12_in_list2d (p : V2 ℝ) (l : List (V2 ℝ)) (tol : ℝ) (ht : 0 ≤ tol) :
    point2dInList p l tol = true ↔ ∃ q ∈ l, V2.norm (q - p) ≤ tol := by
  simp only [point2dInList, List.any_eq_true, decide_eq_true_eq]
  refine exists_congr fun q => and_congr_right fun _ => ?_
  have h := V2.norm_sq (q - p)
  have h0 := V2.norm_nonneg (q - p)
  simp only [V2.dot, V2.sub_x, V2.sub_y] at h
  rw [← h]
  constructor
  · intro hh; nlinarith
  · intro hh; exact mul_le_mul hh hh h0 ht
example : point2dInList (⟨0, 0⟩ : V2 ℚ) [⟨3, 4⟩, ⟨1, 0⟩] 1 = true := by decide +kernel

/-- **C12** `get_element_index_in_list` gives the index of the first close element, or `None` iff there
is none; for a symmetric test this agrees with `element_in_list`. -/
theorem C12_index_in_list {α : Type*} (isClose : α → α → Bool) (e : α) (l : List α) :
    (∀ i, getElementIndexInList isClose e l = some i ↔
      ∃ (h : i < l.length), isClose l[i] e = true ∧ ∀ j (hj : j < i), isClose (l[j]'(hj.trans h)) e = false) ∧
    (getElementIndexInList isClose e l = none ↔ ∀ x ∈ l, isClose x e = false) ∧
    ((∀ x y, isClose x y = isClose y x) →
      (elementInList isClose e l = true ↔ ∃ i, getElementIndexInList isClose e l = some i)) := by
  have gen : ∀ (l : List α) (k : ℕ),
      (∀ i, getElementIndexFrom isClose e l k = some i ↔ ∃ (n : ℕ) (h : n < l.length), i = k + n ∧ isClose l[n] e = true ∧
        ∀ j (hj : j < n), isClose (l[j]'(hj.trans h)) e = false) ∧
      (getElementIndexFrom isClose e l k = none ↔ ∀ x ∈ l, isClose x e = false) := by
    intro l
    induction l with
    | nil => intro k; simp [getElementIndexFrom]
    | cons a l ih =>
      intro k
      obtain ⟨ih1, ih2⟩ := ih (k + 1)
      unfold getElementIndexFrom
      cases hc : isClose a e with
      | true =>
        simp only [if_true]
        refine ⟨fun i => ?_, by simp [hc]⟩
        constructor
        · rintro h
          exact ⟨0, by simp, by simpa using (Option.some.inj h).symm, by simpa using hc, by simp⟩
        · rintro ⟨n, h, rfl, h1, h2⟩
          cases n with
          | zero => rfl
          | succ n => exact absurd (h2 0 (Nat.succ_pos n)) (by simp [hc])
      | false =>
        simp only [Bool.false_eq_true, if_false]
        refine ⟨fun i => ?_, by rw [ih2]; simp [hc]⟩
        rw [ih1]
        constructor
        · rintro ⟨n, h, rfl, h1, h2⟩
          refine ⟨n + 1, by simpa using h, by omega, by simpa using h1, ?_⟩
          intro j hj
          cases j with
          | zero => simpa using hc
          | succ j => simpa using h2 j (by omega)
        · rintro ⟨n, h, rfl, h1, h2⟩
          cases n with
          | zero => rw [List.getElem_cons_zero, hc] at h1; cases h1
          | succ n =>
            exact ⟨n, by simpa using h, by omega, by simpa using h1, fun j hj => by simpa using h2 (j + 1) (by omega)⟩
  refine ⟨fun i => ?_, (gen l 0).2, ?_⟩
  · unfold getElementIndexInList
    rw [(gen l 0).1]
    constructor
    · rintro ⟨n, h, rfl, h1, h2⟩
      simp only [Nat.zero_add]
      exact ⟨h, h1, h2⟩
    · rintro ⟨h, h1, h2⟩
      exact ⟨i, h, by simp, h1, h2⟩
  · intro hsymm
    have h2 := (gen l 0).2
    constructor
    · intro h
      cases hi : getElementIndexInList isClose e l with
      | some i => exact ⟨i, rfl⟩
      | none =>
        have := h2.1 hi
        simp only [elementInList, List.any_eq_true] at h
        obtain ⟨x, hx, hxe⟩ := h
        rw [hsymm, this x hx] at hxe
        cases hxe
    · rintro ⟨i, hi⟩
      unfold getElementIndexInList at hi
      obtain ⟨n, h, -, h1, -⟩ := ((gen l 0).1 i).1 hi
      simp only [elementInList, List.any_eq_true]
      exact ⟨l[n], List.getElem_mem h, by rw [hsymm]; exact h1⟩
example : getElementIndexInList (fun a b : ℚ => decide (|a - b| ≤ 1)) 5 [1, 3, 6, 5] = some 2 := by decide +kernel

/-- **C12** `delete_double_point` with any equality test that is reflexive: the result is a sublist of
the input (order kept), every input point has a kept point equal to it, and no kept point is equal to
a kept point before it. -/
theorem C12_delete_double_point {α : Type*} (eq : α → α → Bool) (hrefl : ∀ a, eq a a = true) (l : List α) :
    (deleteDoublePoint eq l).Sublist l ∧
    (∀ p ∈ l, ∃ q ∈ deleteDoublePoint eq l, eq q p = true) ∧
    (deleteDoublePoint eq l).Pairwise (fun q p => eq q p = false) := by
  unfold deleteDoublePoint
  have gen : ∀ (l pre acc : List α), acc.Sublist pre → (∀ p ∈ pre, ∃ q ∈ acc, eq q p = true) →
      acc.Pairwise (fun q p => eq q p = false) →
      let r := l.foldl (fun points point => if points.any (fun q => eq q point) then points else points ++ [point]) acc
      r.Sublist (pre ++ l) ∧ (∀ p ∈ pre ++ l, ∃ q ∈ r, eq q p = true) ∧ r.Pairwise (fun q p => eq q p = false) := by
    intro l
    induction l with
    | nil => intro pre acc h1 h2 h3; simpa using ⟨h1, h2, h3⟩
    | cons a l ih =>
      intro pre acc h1 h2 h3
      rw [List.foldl_cons]
      have happ : pre ++ a :: l = (pre ++ [a]) ++ l := by simp
      rw [happ]
      split
      · rename_i hany
        simp only [List.any_eq_true] at hany
        apply ih
        · exact h1.trans (List.sublist_append_left _ _)
        · intro p hp
          rcases List.mem_append.1 hp with hp | hp
          · exact h2 p hp
          · rw [List.mem_singleton.1 hp]; exact hany
        · exact h3
      · rename_i hany
        simp only [List.any_eq_true, not_exists, not_and, Bool.not_eq_true] at hany
        apply ih
        · exact h1.append (List.Sublist.refl _)
        · intro p hp
          rcases List.mem_append.1 hp with hp | hp
          · obtain ⟨q, hq, e⟩ := h2 p hp
            exact ⟨q, List.mem_append_left _ hq, e⟩
          · rw [List.mem_singleton.1 hp]
            exact ⟨a, by simp, hrefl a⟩
        · rw [List.pairwise_append]
          refine ⟨h3, by simp, ?_⟩
          intro q hq p hp
          rw [List.mem_singleton.1 hp]
          exact hany q hq
  simpa using gen l [] [] (List.Sublist.refl _) (by simp) List.Pairwise.nil
/-- **C12** with exact equality (points): same members, no duplicates. -/
theorem C12_delete_double_point_exact {α : Type*} [DecidableEq α] (l : List α) :
    (deleteDoublePoint (fun a b => decide (a = b)) l).Nodup ∧
    ∀ p, p ∈ deleteDoublePoint (fun a b => decide (a = b)) l ↔ p ∈ l := by
  obtain ⟨h1, h2, h3⟩ := C12_delete_double_point (fun a b : α => decide (a = b)) (by simp) l
  refine ⟨h3.imp (by simp), fun p => ⟨fun hp => h1.subset hp, fun hp => ?_⟩⟩
  obtain ⟨q, hq, e⟩ := h2 p hp
  simp only [decide_eq_true_eq] at e
  exact e ▸ hq
example : deleteDoublePoint (fun a b => decide (a = b)) [(⟨1, 2⟩ : V2 ℚ), ⟨3, 4⟩, ⟨1, 2⟩] = [⟨1, 2⟩, ⟨3, 4⟩] := by decide

/-! ### remove_duplicate -/

theorem dictSet_keys {κ ν : Type*} [DecidableEq κ] (d : List (κ × ν)) (k : κ) (v : ν) :
    (dictSet d k v).map Prod.fst = if k ∈ d.map Prod.fst then d.map Prod.fst else d.map Prod.fst ++ [k] := by
  induction d with
  | nil => simp [dictSet]
  | cons kv d ih =>
    obtain ⟨k', v'⟩ := kv
    unfold dictSet
    split
    · rename_i h; subst h; simp
    · rename_i h
      simp only [List.map_cons, List.mem_cons, ih]
      by_cases hk : k ∈ d.map Prod.fst
      · simp [hk]
      · simp [hk, Ne.symm h]
theorem dictSet_mem {κ ν : Type*} [DecidableEq κ] (d : List (κ × ν)) (k : κ) (v : ν) (kv : κ × ν)
    (h : kv ∈ dictSet d k v) : kv ∈ d ∨ kv = (k, v) := by
  induction d with
  | nil => simpa [dictSet] using h
  | cons a d ih =>
    obtain ⟨k', v'⟩ := a
    unfold dictSet at h
    split at h
    · rename_i hk; subst hk
      rcases List.mem_cons.1 h with h | h
      · exact Or.inr h
      · exact Or.inl (List.mem_cons_of_mem _ h)
    · rcases List.mem_cons.1 h with h | h
      · exact Or.inl (h ▸ List.mem_cons_self)
      · rcases ih h with h | h
        · exact Or.inl (List.mem_cons_of_mem _ h)
        · exact Or.inr h

/-- The dictionary built by `remove_duplicate`. -/
theorem dict_fold {α κ : Type*} [DecidableEq κ] (h : α → κ) (l : List α) :
    ∀ d : List (κ × α), (d.map Prod.fst).Nodup → (∀ kv ∈ d, kv.1 = h kv.2) →
      let r := l.foldl (fun d p => dictSet d (h p) p) d
      (r.map Prod.fst).Nodup ∧ (∀ kv ∈ r, kv.1 = h kv.2) ∧ (∀ kv ∈ r, kv ∈ d ∨ kv.2 ∈ l) ∧
      (∀ k ∈ d.map Prod.fst, k ∈ r.map Prod.fst) ∧ ∀ p ∈ l, h p ∈ r.map Prod.fst := by
  induction l with
  | nil => intro d h1 h2; exact ⟨h1, h2, fun kv hk => Or.inl hk, fun k hk => hk, by simp⟩
  | cons a l ih =>
    intro d h1 h2
    rw [List.foldl_cons]
    have hn : ((dictSet d (h a) a).map Prod.fst).Nodup := by
      rw [dictSet_keys]
      split
      · exact h1
      · rename_i hk
        rw [List.nodup_append]
        refine ⟨h1, by simp, ?_⟩
        intro x hx y hy e
        rw [List.mem_singleton] at hy
        exact hk (hy ▸ e ▸ hx)
    have hv : ∀ kv ∈ dictSet d (h a) a, kv.1 = h kv.2 := by
      intro kv hkv
      rcases dictSet_mem d _ _ kv hkv with hkv | rfl
      · exact h2 kv hkv
      · rfl
    have hkeys : ∀ k ∈ d.map Prod.fst, k ∈ (dictSet d (h a) a).map Prod.fst := by
      intro k hk; rw [dictSet_keys]; split
      · exact hk
      · exact List.mem_append_left _ hk
    have hka : h a ∈ (dictSet d (h a) a).map Prod.fst := by
      rw [dictSet_keys]; split
      · assumption
      · simp
    obtain ⟨r1, r2, r3, r4, r5⟩ := ih _ hn hv
    refine ⟨r1, r2, ?_, fun k hk => r4 k (hkeys k hk), ?_⟩
    · intro kv hkv
      rcases r3 kv hkv with hkv | hkv
      · rcases dictSet_mem d _ _ kv hkv with hkv | rfl
        · exact Or.inl hkv
        · exact Or.inr List.mem_cons_self
      · exact Or.inr (List.mem_cons_of_mem _ hkv)
    · intro p hp
      rcases List.mem_cons.1 hp with rfl | hp
      · exact r4 _ hka
      · exact r5 p hp

/-- **C12** `remove_duplicate`, the true part for any hash: the result consists of input points, one and
only one for each hash value; hence if different points of the list have different hashes, exactly
the duplicates are removed. -/
theorem C12_remove_duplicate_partial {α κ : Type*} [DecidableEq κ] (h : α → κ) (l : List α) :
    (∀ p ∈ removeDuplicate h l, p ∈ l) ∧
    (∀ p ∈ l, ∃ q ∈ removeDuplicate h l, h q = h p) ∧
    (removeDuplicate h l).Pairwise (fun p q => h p ≠ h q) ∧
    ((∀ p ∈ l, ∀ q ∈ l, h p = h q → p = q) → (removeDuplicate h l).Nodup ∧ ∀ p, p ∈ removeDuplicate h l ↔ p ∈ l) := by
  obtain ⟨r1, r2, r3, -, r5⟩ := dict_fold h l [] (by simp) (by simp)
  have a1 : ∀ p ∈ removeDuplicate h l, p ∈ l := by
    intro p hp
    obtain ⟨kv, hkv, rfl⟩ := List.mem_map.1 hp
    simpa using r3 kv hkv
  have a2 : ∀ p ∈ l, ∃ q ∈ removeDuplicate h l, h q = h p := by
    intro p hp
    obtain ⟨kv, hkv, e⟩ := List.mem_map.1 (r5 p hp)
    exact ⟨kv.2, List.mem_map_of_mem hkv, by rw [← r2 kv hkv, e]⟩
  have a3 : (removeDuplicate h l).Pairwise (fun p q => h p ≠ h q) := by
    unfold removeDuplicate
    rw [List.pairwise_map]
    rw [List.Nodup, List.pairwise_map] at r1
    refine r1.imp_of_mem ?_
    intro a b ha hb hab e
    exact hab (by rw [r2 a ha, r2 b hb, e])
  refine ⟨a1, a2, a3, fun hinj => ⟨a3.imp fun hpq e => hpq (by rw [e]), fun p => ⟨a1 p, fun hp => ?_⟩⟩⟩
  obtain ⟨q, hq, e⟩ := a2 p hp
  exact hinj q (a1 q hq) p hp e ▸ hq
/-- **C12** full statement for `remove_duplicate`: no point is lost. -/
def C12_remove_duplicate_full_statement : Prop :=
  ∀ l : List (V2 ℚ), ∀ p ∈ l, p ∈ removeDuplicate V2.approxHash l
/-- **C12** false: `(0, 1)` and `(1, 0)` have the same approximate hash, one of them disappears. -/
theorem C12_remove_duplicate_counterexample : ¬ C12_remove_duplicate_full_statement := by
  intro h
  have := h [⟨0, 1⟩, ⟨1, 0⟩] ⟨0, 1⟩ (by simp)
  revert this
  decide +kernel
example : removeDuplicate V2.approxHash ([⟨1, 2⟩, ⟨3, 4⟩, ⟨1, 2⟩] : List (V2 ℚ)) = [⟨1, 2⟩, ⟨3, 4⟩] := by decide +kernel

/-- Python's `round`: an integer at distance at most `1/2`, the even one in case of a tie. -/
theorem pyRound_spec {K : Type*} [Field K] [LinearOrder K] [IsStrictOrderedRing K] [FloorRing K] (x : K) :
    |x - pyRound x| ≤ 1 / 2 ∧ (|x - pyRound x| = 1 / 2 → pyRound x % 2 = 0) := by
  have h0 := Int.floor_le x
  have h1 := Int.lt_floor_add_one x
  unfold pyRound
  dsimp only
  split
  · rename_i h
    have e : |x - (⌊x⌋ : K)| = x - ⌊x⌋ := abs_of_nonneg (by linarith)
    rw [e]
    exact ⟨h.le, fun h' => absurd h' h.ne⟩
  rename_i h
  split
  · rename_i h2
    have e : |x - ((⌊x⌋ + 1 : ℤ) : K)| = ⌊x⌋ + 1 - x := by
      push_cast
      rw [abs_of_nonpos (by linarith)]; ring
    rw [e]
    exact ⟨by linarith, fun h' => absurd h' (by intro h'; linarith)⟩
  rename_i h2
  have e3 : x - (⌊x⌋ : K) = 1 / 2 := le_antisymm (not_lt.1 h2) (not_lt.1 h)
  split
  · rename_i h3
    rw [e3, abs_of_pos (by norm_num)]
    exact ⟨le_rfl, fun _ => h3⟩
  · rename_i h3
    have e4 : x - ((⌊x⌋ + 1 : ℤ) : K) = -(1 / 2) := by push_cast; linarith
    rw [e4, abs_neg, abs_of_pos (by norm_num)]
    exact ⟨le_rfl, fun _ => by omega⟩

/-- It is the only such integer. -/
theorem pyRound_unique {K : Type*} [Field K] [LinearOrder K] [IsStrictOrderedRing K] [FloorRing K] (x : K) (n : ℤ)
    (h : |x - n| < 1 / 2) : pyRound x = n := by
  have h1 := (pyRound_spec x).1
  have : |((pyRound x - n : ℤ) : K)| < 1 := by
    push_cast
    calc |(pyRound x : K) - n| = |(x - n) - (x - pyRound x)| := by congr 1; ring
      _ ≤ |x - n| + |x - pyRound x| := abs_sub _ _
      _ < 1 := by linarith
  rw [← Int.cast_abs] at this
  have h2 : |pyRound x - n| < 1 := by exact_mod_cast this
  have := abs_lt.1 h2
  omega

/-- **C12** the approximate hash is the nearest multiple of `1e-6` to the sum of the coordinates, in both
dimensions. -/
theorem C12_approx_hash {K : Type*} [Field K] [LinearOrder K] [IsStrictOrderedRing K] [FloorRing K] :
    (∀ p : V2 K, |p.x + p.y - V2.approxHash p / 10 ^ 6| ≤ 1 / 2 / 10 ^ 6) ∧
    (∀ p : V3 K, |p.x + p.y + p.z - V3.approxHash p / 10 ^ 6| ≤ 1 / 2 / 10 ^ 6) ∧
    (∀ (p : V2 K) (n : ℤ), |p.x + p.y - n / 10 ^ 6| < 1 / 2 / 10 ^ 6 → V2.approxHash p = n) ∧
    (∀ (p : V3 K) (n : ℤ), |p.x + p.y + p.z - n / 10 ^ 6| < 1 / 2 / 10 ^ 6 → V3.approxHash p = n) := by
  have key : ∀ (x : K) (n : ℤ), |x - n / 10 ^ 6| = |10 ^ 6 * x - n| / 10 ^ 6 := by
    intro x n
    rw [eq_div_iff (by positivity), ← abs_of_pos (show (0 : K) < 10 ^ 6 by positivity), ← abs_mul,
      abs_of_pos (show (0 : K) < 10 ^ 6 by positivity)]
    congr 1
    field_simp
  have hp : (0 : K) < 10 ^ 6 := by positivity
  refine ⟨fun p => ?_, fun p => ?_, fun p n h => ?_, fun p n h => ?_⟩
  · rw [key]; exact div_le_div_of_nonneg_right (pyRound_spec _).1 hp.le
  · rw [key]; exact div_le_div_of_nonneg_right (pyRound_spec _).1 hp.le
  · rw [key, div_lt_div_iff_of_pos_right hp] at h; exact pyRound_unique _ _ h
  · rw [key, div_lt_div_iff_of_pos_right hp] at h; exact pyRound_unique _ _ h

/-- **C12** `remove_duplicate` on 3D points: every input point has a representative in the result whose
coordinate sum is at most `1e-6` away, and two kept points never have the same rounded sum. -/
theorem C12_remove_duplicate_points {K : Type*} [Field K] [LinearOrder K] [IsStrictOrderedRing K] [FloorRing K]
    (l : List (V3 K)) :
    (∀ p ∈ l, ∃ q ∈ removeDuplicate V3.approxHash l, |(q.x + q.y + q.z) - (p.x + p.y + p.z)| ≤ 1 / 10 ^ 6) ∧
    (∀ p ∈ l, (∀ q ∈ l, |(q.x + q.y + q.z) - (p.x + p.y + p.z)| ≤ 1 / 10 ^ 6 → q = p) →
      p ∈ removeDuplicate V3.approxHash l) := by
  obtain ⟨h1, h2, -, -⟩ := C12_remove_duplicate_partial V3.approxHash l
  have key : ∀ p ∈ l, ∃ q ∈ removeDuplicate V3.approxHash l,
      |(q.x + q.y + q.z) - (p.x + p.y + p.z)| ≤ 1 / 10 ^ 6 := by
    intro p hp
    obtain ⟨q, hq, e⟩ := h2 p hp
    refine ⟨q, hq, ?_⟩
    have a := C12_approx_hash.2.1 p
    have b := C12_approx_hash.2.1 q
    rw [e] at b
    rw [abs_le] at a b ⊢
    constructor <;> linarith [a.1, a.2, b.1, b.2]
  refine ⟨key, fun p hp hq => ?_⟩
  obtain ⟨q, hqm, e⟩ := key p hp
  rw [← hq q (h1 q hqm) e]
  exact hqm
example : pyRound (1 / 2 : ℚ) = 0 ∧ pyRound (3 / 2 : ℚ) = 2 ∧ pyRound (-3 / 2 : ℚ) = -2 ∧ pyRound (7 / 4 : ℚ) = 2 := by
  decide +kernel
example : (⟨1, 2, 3⟩ : V3 ℚ) ∈ removeDuplicate V3.approxHash ([⟨1, 2, 3⟩, ⟨3, 4, 0⟩, ⟨1, 2, 3⟩] : List (V3 ℚ)) := by
  decide +kernel

/-! ## C13 -/

/-- **C13** points and vectors: `==` is an equivalence relation and equal objects have equal hashes,
whatever Python's tuple hash is. -/
theorem C13_points {K : Type*} [DecidableEq K] (tupleHash : String → K → K → ℤ) :
    (∀ a : Obj2 K, a.pyEq a = true) ∧ (∀ a b : Obj2 K, a.pyEq b = b.pyEq a) ∧
    (∀ a b c : Obj2 K, a.pyEq b = true → b.pyEq c = true → a.pyEq c = true) ∧
    (∀ a b : Obj2 K, a.pyEq b = true → a.hash tupleHash = b.hash tupleHash) ∧
    ∀ a b : Obj2 K, a.pyEq b = true ↔ (a.isPoint = b.isPoint ∧ a.val.x = b.val.x ∧ a.val.y = b.val.y) := by
  have key : ∀ a b : Obj2 K, a.pyEq b = true ↔ (a.isPoint = b.isPoint ∧ a.val.x = b.val.x ∧ a.val.y = b.val.y) := by
    rintro ⟨pa, va⟩ ⟨pb, vb⟩
    cases pa <;> cases pb <;> simp [Obj2.pyEq, Obj2.eqMethod]
  refine ⟨fun a => by simp [key], fun a b => ?_, fun a b c => ?_, fun a b => ?_, key⟩
  · rw [Bool.eq_iff_iff, key, key]; tauto
  · rw [key, key, key]
    rintro ⟨h1, h2, h3⟩ ⟨k1, k2, k3⟩
    exact ⟨h1.trans k1, h2.trans k2, h3.trans k3⟩
  · rw [key]
    rintro ⟨h1, h2, h3⟩
    simp [Obj2.hash, h1, h2, h3]
example : (⟨true, ⟨1, 2⟩⟩ : Obj2 ℚ).pyEq ⟨true, ⟨1, 2⟩⟩ = true := by decide

/-- **C13** full statement for mesh nodes. -/
def C13_nodes_full_statement : Prop :=
  (∀ p q : V3 ℚ, node3dEq p q = true → node3dHash p = node3dHash q) ∧
  (∀ p q : V2 ℚ, node2dEq p q = true → node2dHash p = node2dHash q) ∧
  (∀ p q r : V2 ℚ, node2dEq p q = true → node2dEq q r = true → node2dEq p r = true)
/-- **C13** false for nodes, each of the three parts: `Node3D.__eq__` ignores `z` while the hash uses it;
two equal 2D nodes can fall on two sides of a hash bucket; equality is not transitive. -/
theorem C13_nodes_counterexample :
    (∃ p q : V3 ℚ, node3dEq p q = true ∧ node3dHash p ≠ node3dHash q) ∧
    (∃ p q : V2 ℚ, node2dEq p q = true ∧ node2dHash p ≠ node2dHash q) ∧
    (∃ p q r : V2 ℚ, node2dEq p q = true ∧ node2dEq q r = true ∧ node2dEq p r = false) := by
  refine ⟨⟨⟨0, 0, 0⟩, ⟨0, 0, 5⟩, by decide +kernel⟩, ⟨⟨1 / 10 ^ 6, 0⟩, ⟨1 / 10 ^ 6 - 1 / 10 ^ 12, 0⟩, by decide +kernel⟩,
    ⟨⟨0, 0⟩, ⟨1 / 10 ^ 12, 0⟩, ⟨2 / 10 ^ 12, 0⟩, by decide +kernel⟩⟩

/-- **C13** the true part for nodes: reflexive, symmetric, and 3D equality tells the `x`, `y`
coordinates apart beyond the tolerance. -/
theorem C13_nodes_partial {K : Type*} [Field K] [LinearOrder K] [IsStrictOrderedRing K] [FloorRing K] :
    (∀ p : V2 K, node2dEq p p = true) ∧ (∀ p q : V2 K, node2dEq p q = node2dEq q p) ∧
    (∀ p : V3 K, node3dEq p p = true) ∧ (∀ p q : V3 K, node3dEq p q = node3dEq q p) := by
  have hr : ∀ a : K, isClose a a (1 / 10 ^ 12) = true := by
    intro a; simp only [isClose, sub_self, abs_zero, decide_eq_true_eq]
    exact le_max_of_le_right (by positivity)
  have hs : ∀ a b : K, isClose a b (1 / 10 ^ 12) = isClose b a (1 / 10 ^ 12) := by
    intro a b; simp only [isClose]; rw [abs_sub_comm, max_comm |a|]
  refine ⟨fun p => ?_, fun p q => ?_, fun p => ?_, fun p q => ?_⟩
  · rw [node2dEq, hr, hr]; rfl
  · rw [node2dEq, node2dEq, hs p.x, hs p.y]
  · rw [node3dEq, hr, hr]; rfl
  · rw [node3dEq, node3dEq, hs p.x, hs p.y]

/-- Python's `int` of a float: the integer part, towards zero. -/
theorem pyInt_spec {K : Type*} [Field K] [LinearOrder K] [IsStrictOrderedRing K] [FloorRing K] (x : K) :
    (0 ≤ x → 0 ≤ pyInt x ∧ (pyInt x : K) ≤ x ∧ x < pyInt x + 1) ∧
    (x ≤ 0 → pyInt x ≤ 0 ∧ x ≤ (pyInt x : K) ∧ (pyInt x : K) - 1 < x) := by
  constructor
  · intro h
    unfold pyInt
    rw [if_pos h]
    exact ⟨Int.floor_nonneg.2 h, Int.floor_le x, Int.lt_floor_add_one x⟩
  · intro h
    unfold pyInt
    by_cases h0 : 0 ≤ x
    · have e : x = 0 := le_antisymm h h0
      subst e
      simp
    · rw [if_neg h0]
      have := Int.ceil_lt_add_one x
      exact ⟨Int.ceil_le.2 (by simpa using h), Int.le_ceil x, by linarith⟩

/-- **C13** what equal node hashes mean: the coordinate sums are less than `2e-6` apart, less than `1e-6` when they
have the same sign; and sums in the same open bucket of length `1e-6` have equal hashes. -/
theorem C13_node_hash {K : Type*} [Field K] [LinearOrder K] [IsStrictOrderedRing K] [FloorRing K] (p q : V3 K) :
    (node3dHash p = node3dHash q → |(p.x + p.y + p.z) - (q.x + q.y + q.z)| < 2 / 10 ^ 6) ∧
    (0 ≤ p.x + p.y + p.z → 0 ≤ q.x + q.y + q.z →
      (node3dHash p = node3dHash q ↔ ⌊10 ^ 6 * (p.x + p.y + p.z)⌋ = ⌊10 ^ 6 * (q.x + q.y + q.z)⌋)) ∧
    (∀ p q : V2 K, node2dHash p = node2dHash q → |(p.x + p.y) - (q.x + q.y)| < 2 / 10 ^ 6) ∧
    (∀ p : V2 K, node2dHash ⟨-p.x, -p.y⟩ = - node2dHash p) := by
  have key : ∀ a b : K, pyInt (10 ^ 6 * a) = pyInt (10 ^ 6 * b) → |a - b| < 2 / 10 ^ 6 := by
    intro a b h
    rw [lt_div_iff₀ (by positivity), ← abs_of_pos (show (0 : K) < 10 ^ 6 by positivity), ← abs_mul, abs_lt]
    have hb : ∀ x : K, |x - pyInt x| < 1 := by
      intro x
      rcases le_total 0 x with hx | hx
      · obtain ⟨-, h1, h2⟩ := (pyInt_spec x).1 hx
        rw [abs_lt]; constructor <;> linarith
      · obtain ⟨-, h1, h2⟩ := (pyInt_spec x).2 hx
        rw [abs_lt]; constructor <;> linarith
    have h1 := abs_lt.1 (hb (10 ^ 6 * a))
    have h2 := abs_lt.1 (hb (10 ^ 6 * b))
    rw [h] at h1
    constructor <;> linarith [h1.1, h1.2, h2.1, h2.2]
  refine ⟨key _ _, fun h1 h2 => ?_, fun p q => key _ _, fun p => ?_⟩
  · unfold node3dHash pyInt
    rw [if_pos (by positivity), if_pos (by positivity)]
  · unfold node2dHash pyInt
    dsimp only
    have e : (10 : K) ^ 6 * (-p.x + -p.y) = - (10 ^ 6 * (p.x + p.y)) := by ring
    rw [e]
    rcases lt_trichotomy (10 ^ 6 * (p.x + p.y)) 0 with h | h | h
    · rw [if_pos (by linarith), if_neg (by linarith), Int.floor_neg]
    · rw [h]; simp
    · rw [if_neg (by linarith), if_pos h.le, Int.ceil_neg]
example : node3dHash (⟨1, 1 / 10 ^ 7, 0⟩ : V3 ℚ) = node3dHash (⟨1, 0, 2 / 10 ^ 7⟩ : V3 ℚ) ∧ node2dHash (⟨-5 / 10 ^ 7, 0⟩ : V2 ℚ) = 0 := by
  decide +kernel

theorem polygonEq_iff {α : Type*} [DecidableEq α] (p q : List α) :
    polygonEq p q = true ↔ ∀ i (h1 : i < p.length) (h2 : i < q.length), p[i] = q[i] := by
  have gen : ∀ (l : List (α × α)) (b : Bool), l.foldl (fun equal pq => equal && decide (pq.1 = pq.2)) b = true ↔
      b = true ∧ ∀ x ∈ l, x.1 = x.2 := by
    intro l
    induction l with
    | nil => simp
    | cons a l ih => intro b; rw [List.foldl_cons, ih]; simp [and_assoc]
  unfold polygonEq
  rw [gen]
  simp only [true_and]
  constructor
  · intro h i h1 h2
    have := h (p[i], q[i]) (by
      rw [List.mem_iff_getElem]
      exact ⟨i, by simp [h1, h2], by simp⟩)
    exact this
  · intro h x hx
    obtain ⟨i, hi, rfl⟩ := List.mem_iff_getElem.1 hx
    simp only [List.length_zip, lt_min_iff] at hi
    simpa using h i hi.1 hi.2
/-- **C13** polygons with the same number of points: `==` is equality of the lists of points. -/
theorem C13_polygons_partial {α : Type*} [DecidableEq α] (p q : List α) (h : p.length = q.length) :
    polygonEq p q = true ↔ p = q := by
  rw [polygonEq_iff]
  constructor
  · intro hh
    exact List.ext_getElem h fun i h1 h2 => hh i h1 h2
  · rintro rfl; simp
/-- **C13** but polygons of different lengths can be equal (one a prefix of the other) and `==` is not
transitive. -/
theorem C13_polygons_counterexample : ∃ p q r : List (V2 ℚ),
    polygonEq p q = true ∧ p ≠ q ∧ polygonEq q p = true ∧ polygonEq p r = true ∧ polygonEq q r = false := by
  exact ⟨[⟨0, 0⟩, ⟨1, 0⟩, ⟨1, 1⟩], [⟨0, 0⟩, ⟨1, 0⟩, ⟨1, 1⟩, ⟨0, 1⟩], [⟨0, 0⟩, ⟨1, 0⟩, ⟨1, 1⟩, ⟨0, 2⟩],
    by decide +kernel⟩

/-! ## C58 -/

theorem bisectLeft_spec {K : Type*} [LinearOrder K] (a : ℕ → K) (x : K) (n : ℕ)
    (hs : ∀ i j, i ≤ j → j < n → a i ≤ a j) (lo hi : ℕ) (h : lo ≤ hi) (hn : hi ≤ n)
    (h1 : ∀ i < lo, a i < x) (h2 : ∀ i, hi ≤ i → i < n → x ≤ a i) :
    let r := bisectLeftLoop a x lo hi
    r ≤ n ∧ (∀ i < r, a i < x) ∧ ∀ i, r ≤ i → i < n → x ≤ a i := by
  induction lo, hi using bisectLeftLoop.induct a x with
  | case1 lo hi hlt mid hmid ih =>
    unfold bisectLeftLoop
    rw [dif_pos hlt]
    simp only
    rw [if_pos hmid]
    apply ih
    · omega
    · exact hn
    · intro i hi'
      exact lt_of_le_of_lt (hs i mid (by omega) (by omega)) hmid
    · exact h2
  | case2 lo hi hlt mid hmid ih =>
    unfold bisectLeftLoop
    rw [dif_pos hlt]
    simp only
    rw [if_neg hmid]
    push Not at hmid
    apply ih
    · omega
    · omega
    · exact h1
    · intro i h3 h4
      exact hmid.trans (hs mid i h3 h4)
  | case3 lo hi hlt =>
    unfold bisectLeftLoop
    rw [dif_neg hlt]
    have : lo = hi := by omega
    subst this
    exact ⟨hn, h1, h2⟩
theorem bisectRight_spec {K : Type*} [LinearOrder K] (a : ℕ → K) (x : K) (n : ℕ)
    (hs : ∀ i j, i ≤ j → j < n → a i ≤ a j) (lo hi : ℕ) (h : lo ≤ hi) (hn : hi ≤ n)
    (h1 : ∀ i < lo, a i ≤ x) (h2 : ∀ i, hi ≤ i → i < n → x < a i) :
    let r := bisectRightLoop a x lo hi
    r ≤ n ∧ (∀ i < r, a i ≤ x) ∧ ∀ i, r ≤ i → i < n → x < a i := by
  induction lo, hi using bisectRightLoop.induct a x with
  | case1 lo hi hlt mid hmid ih =>
    unfold bisectRightLoop
    rw [dif_pos hlt]
    simp only
    rw [if_pos hmid]
    apply ih
    · omega
    · omega
    · exact h1
    · intro i h3 h4
      exact hmid.trans_le (hs mid i h3 h4)
  | case2 lo hi hlt mid hmid ih =>
    unfold bisectRightLoop
    rw [dif_pos hlt]
    simp only
    rw [if_neg hmid]
    push Not at hmid
    apply ih
    · omega
    · exact hn
    · intro i hi'
      exact le_trans (hs i mid (by omega) (by omega)) hmid
    · exact h2
  | case3 lo hi hlt =>
    unfold bisectRightLoop
    rw [dif_neg hlt]
    have : lo = hi := by omega
    subst this
    exact ⟨hn, h1, h2⟩

/-- **C58** `array_range_search` on a sorted list: exactly the indices of the values in `[xmin, xmax]`. -/
theorem C58_array_range_search {K : Type*} [LinearOrder K] [Zero K] (x : List K) (hx : x.Pairwise (· ≤ ·))
    (xmin xmax : K) (i : ℕ) :
    ((arrayRangeSearch x xmin xmax).1 ≤ i ∧ i < (arrayRangeSearch x xmin xmax).2) ↔
      ∃ h : i < x.length, xmin ≤ x[i] ∧ x[i] ≤ xmax := by
  have hget : ∀ i (h : i < x.length), x.getD i 0 = x[i] := by intro i h; simp [h]
  have hs : ∀ i j, i ≤ j → j < x.length → x.getD i 0 ≤ x.getD j 0 := by
    intro i j hij hj
    have hi : i < x.length := lt_of_le_of_lt hij hj
    rw [hget i hi, hget j hj]
    rcases hij.eq_or_lt with rfl | hlt
    · exact le_rfl
    · exact List.pairwise_iff_getElem.1 hx i j hi hj hlt
  obtain ⟨l1, l2, l3⟩ := bisectLeft_spec (fun i => x.getD i 0) xmin x.length hs 0 x.length (Nat.zero_le _) le_rfl
    (by simp) (fun i h1 h2 => absurd h2 (by omega))
  obtain ⟨r1, r2, r3⟩ := bisectRight_spec (fun i => x.getD i 0) xmax x.length hs 0 x.length (Nat.zero_le _) le_rfl
    (by simp) (fun i h1 h2 => absurd h2 (by omega))
  simp only [arrayRangeSearch]
  constructor
  · rintro ⟨h1, h2⟩
    have hi : i < x.length := lt_of_lt_of_le h2 r1
    have a := l3 i h1 hi
    have b := r2 i h2
    simp only [hget i hi] at a b
    exact ⟨hi, a, b⟩
  · rintro ⟨hi, h1, h2⟩
    constructor
    · by_contra hc
      have := l2 i (by omega)
      simp only [hget i hi] at this
      exact absurd h1 (not_le.2 this)
    · by_contra hc
      have := r3 i (by omega) hi
      simp only [hget i hi] at this
      exact absurd h2 (not_le.2 this)
example : ([1, 2, 3, 4, 5] : List ℚ).Pairwise (· ≤ ·) := by decide +kernel

/-- **C58** `verify_repeated_parametric_points`: a sublist of the input (order kept) without repetitions
and with the same members. -/
theorem C58_verify_repeated {α : Type*} [DecidableEq α] (l : List α) :
    (verifyRepeatedParametricPoints l).Sublist l ∧ (verifyRepeatedParametricPoints l).Nodup ∧
    ∀ p, p ∈ verifyRepeatedParametricPoints l ↔ p ∈ l := by
  unfold verifyRepeatedParametricPoints
  split
  · have gen : ∀ (l pre acc seen : List α), acc.Sublist pre → acc.Nodup → (∀ p, p ∈ acc ↔ p ∈ pre) →
        (∀ p, p ∈ seen ↔ p ∈ acc) →
        let r := (l.foldl (fun (st : List α × List α) p => if p ∈ st.2 then st else (st.1 ++ [p], p :: st.2)) (acc, seen)).1
        r.Sublist (pre ++ l) ∧ r.Nodup ∧ ∀ p, p ∈ r ↔ p ∈ pre ++ l := by
      intro l
      induction l with
      | nil => intro pre acc seen h1 h2 h3 _; simpa using ⟨h1, h2, h3⟩
      | cons a l ih =>
        intro pre acc seen h1 h2 h3 h4
        rw [List.foldl_cons]
        have happ : pre ++ a :: l = (pre ++ [a]) ++ l := by simp
        rw [happ]
        split
        · rename_i ha
          apply ih
          · exact h1.trans (List.sublist_append_left _ _)
          · exact h2
          · intro p
            rw [h3, List.mem_append, List.mem_singleton]
            constructor
            · exact Or.inl
            · rintro (h | rfl)
              · exact h
              · exact (h3 p).1 ((h4 p).1 ha)
          · exact h4
        · rename_i ha
          apply ih
          · exact h1.append (List.Sublist.refl _)
          · rw [List.nodup_append]
            refine ⟨h2, by simp, ?_⟩
            intro x hx y hy e
            rw [List.mem_singleton] at hy
            subst hy e
            exact ha ((h4 x).2 hx)
          · intro p; simp [h3]
          · intro p; simp [h4, or_comm]
    simpa using gen l [] [] [] (List.Sublist.refl _) List.nodup_nil (by simp) (by simp)
  · rename_i h
    refine ⟨List.Sublist.refl _, ?_, fun p => Iff.rfl⟩
    push Not at h
    have := (List.dedup_sublist l).eq_of_length_le h
    rw [← this]; exact List.nodup_dedup l
example : verifyRepeatedParametricPoints [3, 1, 3, 2, 1] = [3, 1, 2] := by decide

/-! ### nearest neighbour ordering -/
section
variable {α : Type*} {R : Type*} [LinearOrder R]

theorem argminFrom_spec (d : α → R) : ∀ (l pre : List α) (best : ℕ) (m : R),
    (∃ h : best < pre.length, d pre[best] = m) → (∀ x ∈ pre, m ≤ d x) →
    ∃ h : argminFrom d l pre.length best m < (pre ++ l).length,
      ∀ x ∈ pre ++ l, d ((pre ++ l)[argminFrom d l pre.length best m]) ≤ d x := by
  intro l
  induction l with
  | nil =>
    rintro pre best m ⟨hb, hm⟩ hall
    simp only [argminFrom, List.append_nil]
    exact ⟨hb, fun x hx => hm ▸ hall x hx⟩
  | cons a l ih =>
    rintro pre best m ⟨hb, hm⟩ hall
    have happ : pre ++ a :: l = (pre ++ [a]) ++ l := by simp
    have hlen : pre.length + 1 = (pre ++ [a]).length := by simp
    unfold argminFrom
    by_cases h : d a < m
    · simp only [if_pos h, happ, hlen]
      apply ih
      · exact ⟨by simp, by simp⟩
      · intro x hx
        rcases List.mem_append.1 hx with hx | hx
        · exact h.le.trans (hall x hx)
        · rw [List.mem_singleton.1 hx]
    · simp only [if_neg h, happ, hlen]
      apply ih
      · exact ⟨by simp; omega, by rw [List.getElem_append_left hb]; exact hm⟩
      · intro x hx
        rcases List.mem_append.1 hx with hx | hx
        · exact hall x hx
        · rw [List.mem_singleton.1 hx]; exact not_lt.1 h
theorem argmin_spec (d : α → R) (l : List α) (h : l ≠ []) :
    ∃ h : argmin d l < l.length, ∀ x ∈ l, d l[argmin d l] ≤ d x := by
  cases l with
  | nil => exact absurd rfl h
  | cons a l =>
    have := argminFrom_spec d l [a] 0 (d a) ⟨by simp, by simp⟩ (by simp)
    simpa [argmin] using this

/-- Specification: each point of the path is followed by one that is nearest among the points still to
come. -/
def GreedyPath (dist : α → α → R) : List α → Prop
  | [] => True
  | [_] => True
  | a :: b :: l => (∀ c ∈ b :: l, dist b a ≤ dist c a) ∧ GreedyPath dist (b :: l)

theorem nearestNeighborLoop_spec (dist : α → α → R) (nz : α → Bool) : ∀ (fuel : ℕ) (cur : α) (rem : List α),
    rem.length < fuel →
    ∃ dropped, (nearestNeighborLoop dist nz fuel cur rem ++ dropped).Perm (cur :: rem) ∧
      (∀ z ∈ dropped, nz z = false) ∧ GreedyPath dist (nearestNeighborLoop dist nz fuel cur rem) ∧
      (nearestNeighborLoop dist nz fuel cur rem).head? = some cur := by
  intro fuel
  induction fuel with
  | zero => intro cur rem h; omega
  | succ fuel ih =>
    intro cur rem hlen
    unfold nearestNeighborLoop
    by_cases hany : rem.any nz = true
    · rw [if_pos hany]
      have hne : rem ≠ [] := by rintro rfl; simp at hany
      obtain ⟨hi, hmin⟩ := argmin_spec (fun p => dist p cur) rem hne
      simp only [List.getElem?_eq_getElem hi]
      have hlen' : (rem.eraseIdx (argmin (fun p => dist p cur) rem)).length < fuel := by
        rw [List.length_eraseIdx, if_pos hi]; omega
      obtain ⟨dropped, hp, hz, hg, hh⟩ := ih (rem[argmin (fun p => dist p cur) rem]) _ hlen'
      have hperm : ((rem[argmin (fun p => dist p cur) rem]) :: rem.eraseIdx (argmin (fun p => dist p cur) rem)).Perm rem :=
        List.getElem_cons_eraseIdx_perm hi
      refine ⟨dropped, ?_, hz, ?_, rfl⟩
      · rw [List.cons_append]
        exact (hp.trans hperm).cons cur
      · cases hL : nearestNeighborLoop dist nz fuel rem[argmin (fun p => dist p cur) rem]
          (rem.eraseIdx (argmin (fun p => dist p cur) rem)) with
        | nil => simp [GreedyPath]
        | cons b l =>
          rw [hL] at hh hg hp
          simp only [List.head?_cons, Option.some.injEq] at hh
          refine ⟨?_, hg⟩
          intro c hc
          rw [hh]
          exact hmin c (hperm.subset (hp.subset (List.mem_append_left _ hc)))
    · rw [if_neg hany]
      refine ⟨rem, by simp, ?_, by simp [GreedyPath], rfl⟩
      simpa [List.any_eq_true] using hany

/-- **C58** `order_points_list_for_nearest_neighbor`, what it does: it starts at the first point, follows
a greedy nearest-neighbour path, and its result is a permutation of the input up to dropped points all
of whose coordinates are zero; in particular it is a permutation when the origin is not in the list. -/
theorem C58_nearest_neighbor_partial (dist : α → α → R) (nz : α → Bool) (p : α) (ps : List α) :
    ∃ r dropped, orderPointsNearestNeighbor dist nz (p :: ps) = .ok r ∧ (r ++ dropped).Perm (p :: ps) ∧
      (∀ z ∈ dropped, nz z = false) ∧ r.head? = some p ∧ GreedyPath dist r ∧
      ((∀ q ∈ p :: ps, nz q = true) → r.Perm (p :: ps)) := by
  obtain ⟨dropped, hp, hz, hg, hh⟩ := nearestNeighborLoop_spec dist nz (ps.length + 1) p ps (Nat.lt_succ_self _)
  refine ⟨_, dropped, rfl, hp, hz, hh, hg, fun hall => ?_⟩
  have : dropped = [] := by
    rw [List.eq_nil_iff_forall_not_mem]
    intro z hzd
    have h1 := hz z hzd
    have h2 := hall z (hp.subset (List.mem_append_right _ hzd))
    rw [h1] at h2; cases h2
  rw [this, List.append_nil] at hp
  exact hp
end

/-- Numpy's truth test of a row of three coordinates. -/
def rowNonZero (p : V3 ℚ) : Bool := decide (p.x ≠ 0) || decide (p.y ≠ 0) || decide (p.z ≠ 0)
/-- **C58** full statement: the result is a permutation of the input. -/
def C58_nearest_neighbor_full_statement : Prop :=
  ∀ (dist : V3 ℚ → V3 ℚ → ℚ) (p : V3 ℚ) (ps r : List (V3 ℚ)),
    orderPointsNearestNeighbor dist rowNonZero (p :: ps) = .ok r → r.Perm (p :: ps)
/-- **C58** false: the origin is lost when it comes last. -/
theorem C58_nearest_neighbor_counterexample : ¬ C58_nearest_neighbor_full_statement := by
  intro h
  have := (h (fun a b => V3.dot (a - b) (a - b)) ⟨1, 0, 0⟩ [⟨0, 0, 0⟩] [⟨1, 0, 0⟩] (by decide +kernel)).length_eq
  simp at this
example : orderPointsNearestNeighbor (fun a b : V3 ℚ => V3.dot (a - b) (a - b)) rowNonZero
    [⟨1, 0, 0⟩, ⟨5, 0, 0⟩, ⟨2, 0, 0⟩] = .ok [⟨1, 0, 0⟩, ⟨2, 0, 0⟩, ⟨5, 0, 0⟩] := by decide +kernel

/-- **C58** removal of the grid points inside an inner polygon: the positions deleted are exactly the
candidates inside it, *except position 0*, which is never deleted. -/
theorem C58_grid_indices_partial (cand : List (ℕ × ℕ)) (index : ℕ × ℕ → Option ℕ) (inside : ℕ → Bool) (k : ℕ) :
    k ∈ gridIndicesToDelete cand index inside ↔ k ≠ 0 ∧ inside k = true ∧ ∃ ij ∈ cand, index ij = some k := by
  have gen : ∀ (cand : List (ℕ × ℕ)) (acc : List ℕ), k ∈ cand.foldl (fun acc ij =>
      match index ij with
      | none => acc
      | some 0 => acc
      | some k => if inside k then acc ++ [k] else acc) acc ↔
      k ∈ acc ∨ (k ≠ 0 ∧ inside k = true ∧ ∃ ij ∈ cand, index ij = some k) := by
    intro cand
    induction cand with
    | nil => simp
    | cons c cand ih =>
      intro acc
      rw [List.foldl_cons, ih]
      cases hc : index c with
      | none => simp [hc]
      | some n =>
        cases n with
        | zero =>
          simp only [List.mem_cons, exists_eq_or_imp, hc, Option.some.injEq]
          constructor
          · rintro (h | ⟨h1, h2, h3⟩)
            · exact Or.inl h
            · exact Or.inr ⟨h1, h2, Or.inr h3⟩
          · rintro (h | ⟨h1, h2, h3 | h3⟩)
            · exact Or.inl h
            · exact absurd h3.symm h1
            · exact Or.inr ⟨h1, h2, h3⟩
        | succ n =>
          simp only [List.mem_cons, exists_eq_or_imp, hc, Option.some.injEq]
          by_cases hin : inside (n + 1) = true
          · simp only [hin, if_true, List.mem_append, List.mem_singleton]
            constructor
            · rintro ((h | rfl) | ⟨h1, h2, h3⟩)
              · exact Or.inl h
              · exact Or.inr ⟨by simp, hin, Or.inl rfl⟩
              · exact Or.inr ⟨h1, h2, Or.inr h3⟩
            · rintro (h | ⟨h1, h2, rfl | h3⟩)
              · exact Or.inl (Or.inl h)
              · exact Or.inl (Or.inr rfl)
              · exact Or.inr ⟨h1, h2, h3⟩
          · simp only [hin, Bool.false_eq_true, if_false]
            constructor
            · rintro (h | ⟨h1, h2, h3⟩)
              · exact Or.inl h
              · exact Or.inr ⟨h1, h2, Or.inr h3⟩
            · rintro (h | ⟨h1, h2, rfl | h3⟩)
              · exact Or.inl h
              · exact absurd h2 hin
              · exact Or.inr ⟨h1, h2, h3⟩
  exact (gen cand []).trans (by simp)
/-- **C58** witness: a point at position 0 inside the polygon stays. -/
theorem C58_grid_indices_counterexample :
    gridIndicesToDelete [(0, 0), (0, 1)] (fun ij => some ij.2) (fun _ => true) = [1] := by decide

end Volmdlr
