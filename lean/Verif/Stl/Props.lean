import Verif.Stl.Model
import Mathlib.Tactic.FieldSimp
import Mathlib.Tactic.Ring

/-!
# C33: binary STL
-/

namespace Volmdlr
section
variable {K : Type*} [Field K]

theorem readU4_u4le (n : ℕ) (h : n < 4294967296) (s : List ℕ) : readU4 (u4le n ++ s) = some (n, s) := by
  show some (_, s) = _
  congr 2
  omega

theorem u4le_bytes (n : ℕ) : (u4le n).length = 4 ∧ ∀ b ∈ u4le n, b < 256 := by
  refine ⟨rfl, ?_⟩
  intro b hb
  simp only [u4le, List.mem_cons, List.not_mem_nil, or_false] at hb
  omega

theorem readV3_u4le (f : F4 K) (mult : K) (a b c : ℕ) (s : List ℕ) (ha : a < 4294967296) (hb : b < 4294967296)
    (hc : c < 4294967296) :
    readV3 f mult (u4le a ++ (u4le b ++ (u4le c ++ s))) = some (⟨mult * f.dec a, mult * f.dec b, mult * f.dec c⟩, s) := by
  unfold readV3
  rw [readU4_u4le a ha]
  dsimp only
  rw [readU4_u4le b hb]
  dsimp only
  rw [readU4_u4le c hc]

/-- Every scaled coordinate is exactly representable, and so is 0. -/
def Representable (f : F4 K) (mult : K) (t : Tri3 K) : Prop :=
  f.Rep 0 ∧ f.Rep (mult * t.1.x) ∧ f.Rep (mult * t.1.y) ∧ f.Rep (mult * t.1.z) ∧
  f.Rep (mult * t.2.1.x) ∧ f.Rep (mult * t.2.1.y) ∧ f.Rep (mult * t.2.1.z) ∧
  f.Rep (mult * t.2.2.x) ∧ f.Rep (mult * t.2.2.y) ∧ f.Rep (mult * t.2.2.z)

theorem readTri_pack (f : F4 K) (mult : K) (hm : mult ≠ 0) (accepts : Tri3 K → Bool) (t : Tri3 K)
    (ht : Representable f mult t) (s : List ℕ) :
    readTri f mult⁻¹ accepts (packTri f mult t ++ s) = some (if accepts t then some t else none, s) := by
  obtain ⟨h0, h1, h2, h3, h4, h5, h6, h7, h8, h9⟩ := ht
  unfold packTri
  simp only [List.append_assoc]
  unfold readTri
  rw [readV3_u4le _ _ _ _ _ _ h0.1 h0.1 h0.1]
  dsimp only
  rw [readV3_u4le _ _ _ _ _ _ h1.1 h2.1 h3.1]
  dsimp only
  rw [readV3_u4le _ _ _ _ _ _ h4.1 h5.1 h6.1]
  dsimp only
  rw [readV3_u4le _ _ _ _ _ _ h7.1 h8.1 h9.1]
  dsimp only
  rw [h1.2, h2.2, h3.2, h4.2, h5.2, h6.2, h7.2, h8.2, h9.2]
  simp only [inv_mul_cancel_left₀ hm]
  have : readBytes 2 ([0, 0] ++ s) = some ([0, 0], s) := by
    unfold readBytes
    rw [if_neg (by simp)]; rfl
  rw [this]

theorem readTris_pack (f : F4 K) (mult : K) (hm : mult ≠ 0) (accepts : Tri3 K → Bool) (l : List (Tri3 K))
    (hl : ∀ t ∈ l, Representable f mult t) (s : List ℕ) :
    readTris f mult⁻¹ accepts l.length (l.flatMap (packTri f mult) ++ s) =
      some (l.map fun t => if accepts t then some t else none, s) := by
  induction l with
  | nil => rfl
  | cons t l ih =>
    rw [List.length_cons, readTris, List.flatMap_cons, List.append_assoc,
      readTri_pack f mult hm accepts t (hl t (by simp))]
    dsimp only
    rw [ih (fun t ht => hl t (by simp [ht]))]
    rfl

theorem invalidIdx_append {α : Type*} (l : List (Option α)) (x : Option α) (i : ℕ) :
    invalidIdx (l ++ [x]) i = invalidIdx l i ++ (if x.isNone then [i + l.length] else []) := by
  induction l generalizing i with
  | nil => cases x <;> rfl
  | cons y l ih =>
    cases y with
    | none =>
      rw [List.cons_append, invalidIdx, invalidIdx, ih, List.cons_append, List.length_cons]
      rw [show i + 1 + l.length = i + (l.length + 1) by omega]
    | some y =>
      rw [List.cons_append, invalidIdx, invalidIdx, ih, List.length_cons,
        show i + 1 + l.length = i + (l.length + 1) by omega]

theorem invalidIdx_lt {α : Type*} (l : List (Option α)) (i : ℕ) : ∀ j ∈ invalidIdx l i, j < i + l.length := by
  induction l generalizing i with
  | nil => intro j hj; simp [invalidIdx] at hj
  | cons y l ih =>
    intro j hj
    rw [List.length_cons]
    cases y with
    | none =>
      rcases List.mem_cons.1 (by simpa [invalidIdx] using hj) with rfl | h
      · omega
      · have := ih (i + 1) j h; omega
    | some y => have := ih (i + 1) j (by simpa [invalidIdx] using hj); omega

theorem foldl_erase_append {α : Type*} (is : List ℕ) (l : List α) (x : List α)
    (h : is.Pairwise (fun a b => b < a)) (h2 : ∀ i ∈ is, i < l.length) :
    is.foldl (fun l i => l.eraseIdx i) (l ++ x) = is.foldl (fun l i => l.eraseIdx i) l ++ x := by
  induction is generalizing l with
  | nil => rfl
  | cons i is ih =>
    rw [List.foldl_cons, List.foldl_cons, List.eraseIdx_append_of_lt_length (h2 i (by simp))]
    obtain ⟨p1, p2⟩ := List.pairwise_cons.1 h
    apply ih _ p2
    intro j hj
    have := p1 j hj
    have := h2 i (by simp)
    rw [List.length_eraseIdx, if_pos this]
    omega

theorem invalidIdx_sorted {α : Type*} (l : List (Option α)) (i : ℕ) :
    (invalidIdx l i).Pairwise (· < ·) ∧ ∀ j ∈ invalidIdx l i, i ≤ j := by
  induction l generalizing i with
  | nil => exact ⟨List.Pairwise.nil, by simp [invalidIdx]⟩
  | cons y l ih =>
    obtain ⟨h1, h2⟩ := ih (i + 1)
    cases y with
    | none =>
      rw [invalidIdx]
      refine ⟨List.pairwise_cons.2 ⟨fun a ha => ?_, h1⟩, ?_⟩
      · have := h2 a ha; omega
      · intro j hj
        rcases List.mem_cons.1 hj with rfl | h
        · exact le_refl _
        · have := h2 j h; omega
    | some y =>
      rw [invalidIdx]
      exact ⟨h1, fun j hj => by have := h2 j hj; omega⟩

/-- Deleting the refused positions from the end leaves the accepted triangles in order. -/
theorem deleteInvalid_eq {α : Type*} (l : List (Option α)) : deleteInvalid l = l.filter Option.isSome := by
  unfold deleteInvalid
  induction l using List.reverseRecOn with
  | nil => rfl
  | append_singleton l x ih =>
    rw [invalidIdx_append, List.filter_append, Nat.zero_add]
    have hp : (invalidIdx l 0).reverse.Pairwise (fun a b => b < a) := by
      rw [List.pairwise_reverse]; exact (invalidIdx_sorted l 0).1
    have hb : ∀ i ∈ (invalidIdx l 0).reverse, i < l.length := by
      intro i hi
      have := invalidIdx_lt l 0 i (List.mem_reverse.1 hi)
      omega
    cases x with
    | none =>
      simp only [Option.isNone_none, if_true, List.reverse_append, List.reverse_singleton, List.singleton_append,
        List.foldl_cons]
      rw [List.eraseIdx_append_of_length_le (le_refl _)]
      simpa using ih
    | some x =>
      simp only [Option.isNone_some, Bool.false_eq_true, if_false, List.append_nil]
      rw [foldl_erase_append _ l [some x] hp hb, ih]
      rfl

/-- **C33** round trip: what `save_to_stream` wrote, `from_binary_stream` reads back as the same triangles with
the same corners in the same order (with the inverse multiplier, coordinates exactly representable, and triangles
that the `Triangle3D` constructor accepts, which is how they came to exist). -/
theorem C33_round_trip (f : F4 K) (mult : K) (hm : mult ≠ 0) (accepts : Tri3 K → Bool) (name : List ℕ)
    (l : List (Tri3 K)) (hl : ∀ t ∈ l, Representable f mult t) (ha : ∀ t ∈ l, accepts t) (hn : l.length < 4294967296) :
    ∃ bytes, saveToStream f mult name l = some bytes ∧
      bytes.length = 84 + 50 * l.length ∧
      fromBinaryStream f mult⁻¹ accepts bytes = some (pack80 name, l.map some) := by
  have hp : (pack80 name).length = 80 := by unfold pack80; simp; omega
  have hb : ∀ t : Tri3 K, (packTri f mult t).length = 50 := by intro t; rfl
  refine ⟨pack80 name ++ u4le l.length ++ l.flatMap (packTri f mult), ?_, ?_, ?_⟩
  · unfold saveToStream; rw [if_pos hn]
  · rw [List.length_append, List.length_append, hp, (u4le_bytes _).1, List.length_flatMap]
    have : (l.map fun a => (packTri f mult a).length).sum = 50 * l.length := by
      simp only [hb]
      simp [mul_comm]
    rw [this]
  · unfold fromBinaryStream readBytes
    rw [if_neg (by rw [List.length_append, List.length_append, hp]; omega), List.append_assoc,
      List.take_left' hp, List.drop_left' hp]
    dsimp only
    rw [readU4_u4le _ hn]
    dsimp only
    have := readTris_pack f mult hm accepts l hl []
    rw [List.append_nil] at this
    rw [this]
    dsimp only
    rw [deleteInvalid_eq]
    congr 2
    have e : (l.map fun t => if accepts t = true then some t else none) = l.map some := by
      apply List.map_congr_left
      intro t ht
      rw [if_pos (ha t ht)]
    rw [e, List.filter_eq_self]
    intro a ha
    obtain ⟨t, -, rfl⟩ := List.mem_map.1 ha
    rfl

/-- **C33** reading any stream: the triangles returned are the accepted ones among those in the file, in order,
none of them missing. -/
theorem C33_read_filters (f : F4 K) (mult : K) (accepts : Tri3 K → Bool) (s : List ℕ) (name : List ℕ)
    (l : List (Option (Tri3 K))) (h : fromBinaryStream f mult accepts s = some (name, l)) :
    ∃ (all : List (Tri3 K)) (rest : List ℕ) (n : ℕ), readU4 (s.drop 80) = some (n, rest) ∧
      (∃ r, readTris f mult (fun _ => true) n rest = some (all.map some, r)) ∧
      all.length = n ∧ l = (all.filter accepts).map some := by
  have key : ∀ n s l r, readTris f mult accepts n s = some (l, r) →
      ∃ all : List (Tri3 K), readTris f mult (fun _ => true) n s = some (all.map some, r) ∧ all.length = n ∧
        l = all.map fun t => if accepts t then some t else none := by
    intro n
    induction n with
    | zero =>
      intro s l r h
      rw [readTris] at h
      obtain ⟨rfl, rfl⟩ := Prod.mk.inj (Option.some.inj h)
      exact ⟨[], rfl, rfl, rfl⟩
    | succ n ih =>
      intro s l r h
      rw [readTris] at h
      cases ht : readTri f mult accepts s with
      | none => rw [ht] at h; exact absurd h (by simp)
      | some tr =>
        obtain ⟨t, s'⟩ := tr
        rw [ht] at h
        dsimp only at h
        cases hr : readTris f mult accepts n s' with
        | none => rw [hr] at h; exact absurd h (by simp)
        | some lr =>
          obtain ⟨l', r'⟩ := lr
          rw [hr] at h
          dsimp only at h
          obtain ⟨rfl, rfl⟩ := Prod.mk.inj (Option.some.inj h)
          obtain ⟨all, h1, h2, h3⟩ := ih s' l' r' hr
          have ht2 : ∃ q : Tri3 K, readTri f mult (fun _ => true) s = some (some q, s') ∧
              t = if accepts q then some q else none := by
            unfold readTri at ht ⊢
            cases h0 : readV3 f 1 s with
            | none => rw [h0] at ht; exact absurd ht (by simp)
            | some a0 =>
              rw [h0] at ht
              dsimp only at ht ⊢
              cases h1 : readV3 f mult a0.2 with
              | none => rw [h1] at ht; exact absurd ht (by simp)
              | some a1 =>
                rw [h1] at ht
                dsimp only at ht ⊢
                cases h2 : readV3 f mult a1.2 with
                | none => rw [h2] at ht; exact absurd ht (by simp)
                | some a2 =>
                  rw [h2] at ht
                  dsimp only at ht ⊢
                  cases h3 : readV3 f mult a2.2 with
                  | none => rw [h3] at ht; exact absurd ht (by simp)
                  | some a3 =>
                    rw [h3] at ht
                    dsimp only at ht ⊢
                    cases h4 : readBytes 2 a3.2 with
                    | none => rw [h4] at ht; exact absurd ht (by simp)
                    | some a4 =>
                      rw [h4] at ht
                      dsimp only at ht ⊢
                      obtain ⟨rfl, rfl⟩ := Prod.mk.inj (Option.some.inj ht)
                      exact ⟨_, rfl, rfl⟩
          obtain ⟨q, hq, rfl⟩ := ht2
          refine ⟨q :: all, ?_, by rw [List.length_cons, h2], by rw [h3]; rfl⟩
          rw [readTris, hq]
          dsimp only
          rw [h1]; rfl
  unfold fromBinaryStream at h
  cases h0 : readBytes 80 s with
  | none => rw [h0] at h; exact absurd h (by simp)
  | some a0 =>
    have e0 : a0.2 = s.drop 80 := by
      unfold readBytes at h0
      split_ifs at h0
      rw [← Option.some.inj h0]
    rw [h0] at h
    dsimp only at h
    cases h1 : readU4 a0.2 with
    | none => rw [h1] at h; exact absurd h (by simp)
    | some a1 =>
      rw [h1] at h
      dsimp only at h
      cases h2 : readTris f mult accepts a1.1 a1.2 with
      | none => rw [h2] at h; exact absurd h (by simp)
      | some a2 =>
        rw [h2] at h
        dsimp only at h
        obtain ⟨rfl, rfl⟩ := Prod.mk.inj (Option.some.inj h)
        obtain ⟨all, k1, k2, k3⟩ := key a1.1 a1.2 a2.1 a2.2 h2
        refine ⟨all, a1.2, a1.1, by rw [← e0, h1], ⟨_, k1⟩, k2, ?_⟩
        rw [deleteInvalid_eq, k3]
        clear k1 k2 k3 h2
        induction all with
        | nil => rfl
        | cons t all ih =>
          rw [List.map_cons, List.filter_cons, List.filter_cons, ih]
          by_cases hac : accepts t = true
          · simp [hac]
          · simp [hac]

/-- The claim for the name. -/
def C33_name_full_statement (K : Type) [Field K] : Prop :=
  ∀ (f : F4 K) (accepts : Tri3 K → Bool) (name : List ℕ), name.length ≤ 80 →
    (saveToStream f 1 name []).bind (fromBinaryStream f 1 accepts) = some (name, [])

/-- **C33** the name does not come back: it is padded with NUL characters that are not removed. -/
theorem C33_name_counterexample : ¬ C33_name_full_statement ℚ := by
  intro h
  have := congrArg (Option.map Prod.fst) (h ⟨fun _ => 0, fun _ => 0⟩ (fun _ => true) [97] (by norm_num))
  revert this
  decide +kernel

/-- A concrete format (small natural numbers) meeting the hypotheses of the round trip. -/
example : ∃ (f : F4 ℚ) (l : List (Tri3 ℚ)), l ≠ [] ∧ (∀ t ∈ l, Representable f 1000 t) := by
  refine ⟨⟨fun x => x.num.toNat, fun n => n⟩, [(⟨0, 0, 0⟩, ⟨1, 0, 0⟩, ⟨0, 1 / 2, 3⟩)], by simp, ?_⟩
  intro t ht
  rw [List.mem_singleton.1 ht]
  unfold Representable F4.Rep
  decide +kernel

end
end Volmdlr
