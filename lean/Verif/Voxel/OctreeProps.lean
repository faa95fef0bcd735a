import Verif.Voxel.OctreeModel
import Verif.Voxel.GridProps
import Mathlib.Data.Rat.Floor

/-!
# C41 and C42: Boolean operations on octrees, construction from points
-/

namespace Volmdlr.Voxel

variable {K : Type} [Field K] [LinearOrder K] [IsStrictOrderedRing K] [FloorRing K]

/-- There is a voxel at the end of the path of indices. -/
def Oct.has : ℕ → Oct → List (Fin 8) → Bool
  | 0, t, [] => t.truthy
  | 0, _, _ :: _ => false
  | _ + 1, _, [] => false
  | n + 1, t, i :: p => Oct.has n (t.child i) p

/-- The centre of the voxel at the end of a path. -/
def pathCentre : K → (Fin 3 → K) → List (Fin 8) → Fin 3 → K
  | _, c, [] => c
  | size, c, i :: p => pathCentre (size / 2) (childCentre (size / 2) c i) p

theorem has_empty (n : ℕ) (p : List (Fin 8)) : Oct.has n (.leaf []) p = false := by
  induction n generalizing p with
  | zero => cases p <;> rfl
  | succ n ih => cases p with
    | nil => rfl
    | cons i p => exact ih p

theorem has_of_not_truthy (n : ℕ) (t : Oct) (h : t.truthy = false) (p : List (Fin 8)) : Oct.has n t p = false := by
  have : t = .leaf [] := by
    cases t with
    | leaf l => simp [Oct.truthy] at h; rw [h]
    | node ch => simp [Oct.truthy] at h
  rw [this]
  exact has_empty n p

theorem has_emptyAt (n : ℕ) (p : List (Fin 8)) : Oct.has n (emptyAt n) p = false := by
  cases n with
  | zero => exact has_empty 0 p
  | succ n => cases p with
    | nil => rfl
    | cons i p => exact has_empty n p

theorem has_length (n : ℕ) (t : Oct) (p : List (Fin 8)) (h : Oct.has n t p = true) : p.length = n := by
  induction n generalizing t p with
  | zero => cases p with
    | nil => rfl
    | cons i p => cases h
  | succ n ih => cases p with
    | nil => cases h
    | cons i p => rw [List.length_cons, ih (t.child i) p h]

omit [IsStrictOrderedRing K] [FloorRing K] [LinearOrder K] in
theorem leafCentres_has (n : ℕ) (size : K) (c : Fin 3 → K) (t : Oct) (ht : 0 < n ∨ t.truthy = true) (q : Fin 3 → K) :
    q ∈ leafCentres n size c t ↔ ∃ p, Oct.has n t p = true ∧ q = pathCentre size c p := by
  induction n generalizing size c t with
  | zero =>
    rw [leafCentres, Set.mem_singleton_iff]
    constructor
    · rintro rfl
      exact ⟨[], ht.resolve_left (by omega), rfl⟩
    · rintro ⟨p, h1, h2⟩
      cases p with
      | nil => exact h2
      | cons i p => cases h1
  | succ n ih =>
    rw [leafCentres, Set.mem_ofPred_eq]
    constructor
    · rintro ⟨i, h1, h2⟩
      rw [ih _ _ _ (Or.inr h1)] at h2
      obtain ⟨p, h3, h4⟩ := h2
      exact ⟨i :: p, h3, h4⟩
    · rintro ⟨p, h1, h2⟩
      cases p with
      | nil => cases h1
      | cons i p =>
        have h3 : (t.child i).truthy = true := by
          by_contra hf
          have := has_of_not_truthy n _ (by simpa using hf) p
          change Oct.has n (t.child i) p = true at h1
          rw [this] at h1
          cases h1
        refine ⟨i, h3, ?_⟩
        rw [ih _ _ _ (Or.inr h3)]
        exact ⟨p, h1, h2⟩

theorem octBit_cases (i : Fin 8) (a : Fin 3) : octBit i a = 0 ∨ octBit i a = 1 := by
  revert i a; decide

theorem octBit_ext (i j : Fin 8) (h : ∀ a, octBit i a = octBit j a) : i = j := by
  revert i j; decide

/-- The voxel is strictly inside the cube of its ancestors. -/
theorem pathCentre_bound (size : K) (hs : 0 < size) (c : Fin 3 → K) (p : List (Fin 8)) (a : Fin 3) :
    |pathCentre size c p a - c a| < size / 2 := by
  induction p generalizing size c with
  | nil => simp [pathCentre]; exact hs
  | cons i p ih =>
    have h := ih (size / 2) (by linarith) (childCentre (size / 2) c i)
    rw [pathCentre]
    rw [abs_lt] at h ⊢
    unfold childCentre at h ⊢
    rcases octBit_cases i a with hb | hb <;> rw [hb] at h <;> push_cast at h <;> constructor <;> linarith [h.1, h.2]

theorem pathCentre_sign (size : K) (hs : 0 < size) (c : Fin 3 → K) (i : Fin 8) (p : List (Fin 8)) (a : Fin 3) :
    (octBit i a = 1 → c a < pathCentre size c (i :: p) a) ∧ (octBit i a = 0 → pathCentre size c (i :: p) a < c a) := by
  have h := pathCentre_bound (size / 2) (by linarith) (childCentre (size / 2) c i) p a
  rw [pathCentre]
  rw [abs_lt] at h
  unfold childCentre at h ⊢
  constructor <;> intro hb <;> rw [hb] at h <;> push_cast at h <;> linarith [h.1, h.2]

/-- Different paths lead to different voxels. -/
theorem pathCentre_inj (size : K) (hs : 0 < size) (c : Fin 3 → K) (p q : List (Fin 8)) (hl : p.length = q.length)
    (h : pathCentre size c p = pathCentre size c q) : p = q := by
  induction p generalizing size c q with
  | nil => cases q with
    | nil => rfl
    | cons j q => simp at hl
  | cons i p ih => cases q with
    | nil => simp at hl
    | cons j q =>
      have hij : i = j := by
        apply octBit_ext
        intro a
        have h1 := pathCentre_sign size hs c i p a
        have h2 := pathCentre_sign size hs c j q a
        rw [h] at h1
        rcases octBit_cases i a with hi | hi <;> rcases octBit_cases j a with hj | hj
        · rw [hi, hj]
        · exact absurd (h1.2 hi) (not_lt.2 (h2.1 hj).le)
        · exact absurd (h1.1 hi) (not_lt.2 (h2.2 hj).le)
        · rw [hi, hj]
      subst hij
      rw [pathCentre, pathCentre] at h
      rw [ih _ (by linarith) _ q (by simpa using hl) h]

/-- The recursion computes the Boolean function `F`. -/
structure OpOk (op : OctOp) (F : Bool → Bool → Bool) : Prop where
  none : F false false = false
  both : ∀ l1 l2, l1 ≠ [] → l2 ≠ [] → ((op.leaf l1 l2 ≠ []) ↔ F true true = true)
  firstYes : op.first = true → ∀ l, l ≠ [] → ((op.leaf l [] ≠ []) ↔ F true false = true)
  firstNo : op.first = false → F true false = false
  secondYes : op.second = true → ∀ l, l ≠ [] → ((op.leaf [] l ≠ []) ↔ F false true = true)
  secondNo : op.second = false → F false true = false

/-- The octree has leaves at the right depth. -/
def WF : ℕ → Oct → Prop
  | 0, t => ∃ l, t = .leaf l
  | n + 1, t => t = .leaf [] ∨ ∃ ch, t = .node ch ∧ ∀ i, WF n (ch i)

theorem WF_empty (n : ℕ) : WF n (.leaf []) := by
  cases n with
  | zero => exact ⟨[], rfl⟩
  | succ n => exact Or.inl rfl

theorem WF_emptyAt (n : ℕ) : WF n (emptyAt n) := by
  cases n with
  | zero => exact ⟨[], rfl⟩
  | succ n => exact Or.inr ⟨_, rfl, fun _ => WF_empty n⟩

theorem WF.child {n : ℕ} {t : Oct} (h : WF (n + 1) t) (i : Fin 8) : WF n (t.child i) := by
  rcases h with rfl | ⟨ch, rfl, h⟩
  · exact WF_empty n
  · exact h i

theorem WF_recOp (op : OctOp) (n : ℕ) (a b : Oct) : WF n (recOp op n a b) := by
  induction n generalizing a b with
  | zero => exact ⟨_, rfl⟩
  | succ n ih =>
    refine Or.inr ⟨_, rfl, fun i => ?_⟩
    split_ifs
    · exact ih _ _
    · exact ih _ _
    · exact ih _ _
    · exact WF_empty n

theorem recOp_has (op : OctOp) (F : Bool → Bool → Bool) (hF : OpOk op F) (n : ℕ) (a b : Oct) (ha : WF n a) (hb : WF n b)
    (hr : 0 < n ∨ (a.truthy = true ∧ b.truthy = true) ∨ (op.first = true ∧ a.truthy = true ∧ b = .leaf []) ∨
      (op.second = true ∧ a = .leaf [] ∧ b.truthy = true)) (p : List (Fin 8)) :
    Oct.has n (recOp op n a b) p = F (Oct.has n a p) (Oct.has n b p) := by
  induction n generalizing a b p with
  | zero =>
    cases p with
    | cons i p => simp [Oct.has, hF.none]
    | nil =>
      obtain ⟨l1, rfl⟩ := ha
      obtain ⟨l2, rfl⟩ := hb
      simp only [Oct.has, recOp, Oct.truthy, Oct.items]
      rcases hr with hr | ⟨h1, h2⟩ | ⟨h0, h1, h2⟩ | ⟨h0, h1, h2⟩
      · omega
      · simp only [Oct.truthy, Bool.not_eq_true', List.isEmpty_eq_false_iff] at h1 h2
        have := hF.both l1 l2 h1 h2
        rw [Bool.eq_iff_iff]
        simp only [Bool.not_eq_true', List.isEmpty_eq_false_iff]
        rw [this, List.isEmpty_eq_false_iff.2 h1, List.isEmpty_eq_false_iff.2 h2]
        rfl
      · simp only [Oct.truthy, Bool.not_eq_true', List.isEmpty_eq_false_iff] at h1
        cases h2
        have := hF.firstYes h0 l1 h1
        rw [Bool.eq_iff_iff]
        simp only [Bool.not_eq_true', List.isEmpty_eq_false_iff]
        rw [this, List.isEmpty_eq_false_iff.2 h1]
        rfl
      · simp only [Oct.truthy, Bool.not_eq_true', List.isEmpty_eq_false_iff] at h2
        cases h1
        have := hF.secondYes h0 l2 h2
        rw [Bool.eq_iff_iff]
        simp only [Bool.not_eq_true', List.isEmpty_eq_false_iff]
        rw [this, List.isEmpty_eq_false_iff.2 h2]
        rfl
  | succ n ih =>
    cases p with
    | nil => simp [Oct.has, hF.none]
    | cons i p =>
      show Oct.has n (if (a.child i).truthy && (b.child i).truthy then recOp op n (a.child i) (b.child i)
        else if (a.child i).truthy && op.first then recOp op n (a.child i) (emptyAt n)
        else if (b.child i).truthy && op.second then recOp op n (emptyAt n) (b.child i)
        else .leaf []) p = F (Oct.has n (a.child i) p) (Oct.has n (b.child i) p)
      by_cases h1 : (a.child i).truthy = true <;> by_cases h2 : (b.child i).truthy = true
      · rw [if_pos (by rw [h1, h2]; rfl)]
        exact ih _ _ (ha.child i) (hb.child i) (Or.inr (Or.inl ⟨h1, h2⟩)) p
      · rw [if_neg (by simp [h2])]
        rw [has_of_not_truthy n (b.child i) (by simpa using h2)]
        cases hf : op.first with
        | true =>
          rw [if_pos (by rw [h1]; rfl), ih _ _ (ha.child i) (WF_emptyAt n) ?_ p, has_emptyAt]
          cases n with
          | zero => exact Or.inr (Or.inr (Or.inl ⟨hf, h1, rfl⟩))
          | succ n => exact Or.inl (Nat.succ_pos n)
        | false =>
          rw [if_neg (by simp), if_neg (by simp [h2]), has_empty]
          cases Oct.has n (a.child i) p with
          | true => rw [hF.firstNo hf]
          | false => rw [hF.none]
      · rw [if_neg (by simp [h1]), if_neg (by simp [h1])]
        rw [has_of_not_truthy n (a.child i) (by simpa using h1)]
        cases hf : op.second with
        | true =>
          rw [if_pos (by rw [h2]; rfl), ih _ _ (WF_emptyAt n) (hb.child i) ?_ p, has_emptyAt]
          cases n with
          | zero => exact Or.inr (Or.inr (Or.inr ⟨hf, rfl, h2⟩))
          | succ n => exact Or.inl (Nat.succ_pos n)
        | false =>
          rw [if_neg (by simp), has_empty]
          cases Oct.has n (b.child i) p with
          | true => rw [hF.secondNo hf]
          | false => rw [hF.none]
      · rw [if_neg (by simp [h1]), if_neg (by simp [h1]), if_neg (by simp [h2]), has_empty,
          has_of_not_truthy n (a.child i) (by simpa using h1), has_of_not_truthy n (b.child i) (by simpa using h2), hF.none]

theorem unionOk (n1 : ℕ) : OpOk (unionOp n1) (fun a b => a || b) := by
  refine ⟨rfl, ?_, ?_, ?_, ?_, ?_⟩ <;> simp [unionOp]
  intro l1 l2 h1 h2 h3; exact absurd h3 h1

theorem differenceOk : OpOk differenceOp (fun a b => a && !b) := by
  refine ⟨rfl, ?_, ?_, ?_, ?_, ?_⟩ <;> simp [differenceOp]
  intro l1 l2 h1 h2 h3; exact absurd h3 h2

theorem intersectionOk (n1 : ℕ) : OpOk (intersectionOp n1) (fun a b => a && b) := by
  refine ⟨rfl, ?_, ?_, ?_, ?_, ?_⟩ <;> simp [intersectionOp]
  intro l1 l2 h1 h2 h3; exact absurd h3 h1

theorem symmetricDifferenceOk (n1 : ℕ) : OpOk (symmetricDifferenceOp n1) (fun a b => xor a b) := by
  refine ⟨rfl, ?_, ?_, ?_, ?_, ?_⟩ <;> simp [symmetricDifferenceOp]
  intro l1 l2 h1 h2
  simp [h1, h2]

end Volmdlr.Voxel
