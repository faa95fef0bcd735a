import Verif.Hull.PredModel
import Verif.Hull.PolyProps
import Verif.Angle.Props

/-!
# `ClosedPolygon2D.is_convex` (wires.py:3996-4010)
-/

namespace Volmdlr.Hull

open Real Volmdlr.Angle Volmdlr.Arc

/-- The direction of the side leaving vertex `i`. -/
noncomputable def side (pts : List (V2 ℝ)) (i : ℕ) : V2 ℝ := vertex pts (i + 1) - vertex pts i

lemma side_ne {pts : List (V2 ℝ)} (h : ∀ i, vertex pts i ≠ vertex pts (i + 1)) (i : ℕ) : side pts i ≠ ⟨0, 0⟩ := by
  intro hs
  apply h i
  have hx : (vertex pts (i + 1) - vertex pts i).x = 0 := by rw [show vertex pts (i + 1) - vertex pts i = side pts i from rfl, hs]
  have hy : (vertex pts (i + 1) - vertex pts i).y = 0 := by rw [show vertex pts (i + 1) - vertex pts i = side pts i from rfl, hs]
  ext
  · have : (vertex pts (i + 1)).x - (vertex pts i).x = 0 := hx
    linarith
  · have : (vertex pts (i + 1)).y - (vertex pts i).y = 0 := hy
    linarith

lemma clockwise_sin (v1 v2 : V2 ℝ) (h1 : v1 ≠ ⟨0, 0⟩) (h2 : v2 ≠ ⟨0, 0⟩) :
    V2.cross v1 v2 = -(V2.norm v1 * V2.norm v2) * sin (clockwiseAngle v1 v2) := by
  obtain ⟨-, -, h⟩ := C54_clockwise_angle v1 v2 h1 h2
  have n1 := norm2_pos h1
  have s1 := norm2_sq v1
  have hx := congrArg V2.x h
  have hy := congrArg V2.y h
  simp only [V2.smul, V2.rotation, V2.rotationCS, cos_neg, sin_neg, show ∀ p q : V2 ℝ, (p - q).x = p.x - q.x from fun _ _ => rfl,
    show ∀ p q : V2 ℝ, (p - q).y = p.y - q.y from fun _ _ => rfl] at hx hy
  have : V2.norm v1 * V2.cross v1 v2 = V2.norm v1 * (-(V2.norm v1 * V2.norm v2) * sin (clockwiseAngle v1 v2)) := by
    unfold V2.cross
    linear_combination (-v1.x) * hy + v1.y * hx + (V2.norm v2 * sin (clockwiseAngle v1 v2)) * s1
  exact mul_left_cancel₀ n1.ne' this

lemma turnAccepted_iff {v1 v2 : V2 ℝ} (h1 : v1 ≠ ⟨0, 0⟩) (h2 : v2 ≠ ⟨0, 0⟩) :
    (turnAccepted true v1 v2 = true ↔ 0 ≤ V2.cross v1 v2) ∧ (turnAccepted false v1 v2 = true ↔ V2.cross v1 v2 ≤ 0) := by
  obtain ⟨ha, hb, -⟩ := C54_clockwise_angle v1 v2 h1 h2
  have hs := clockwise_sin v1 v2 h1 h2
  have hn : 0 < V2.norm v1 * V2.norm v2 := mul_pos (norm2_pos h1) (norm2_pos h2)
  have hp := pi_pos
  unfold turnAccepted
  dsimp only
  constructor
  · rw [if_pos rfl, Bool.not_eq_true', decide_eq_false_iff_not]
    constructor
    · intro h
      have hge : π ≤ clockwiseAngle v1 v2 := by
        by_contra hlt
        exact h ⟨not_le.1 hlt, ha.ne'⟩
      have : sin (clockwiseAngle v1 v2) ≤ 0 := by
        have := sin_nonneg_of_nonneg_of_le_pi (x := clockwiseAngle v1 v2 - π) (by linarith) (by linarith)
        rw [sin_sub_pi] at this
        linarith
      rw [hs]
      nlinarith
    · rintro h ⟨hlt, -⟩
      have := sin_pos_of_pos_of_lt_pi ha hlt
      rw [hs] at h
      nlinarith
  · rw [if_neg (by simp), Bool.not_eq_true', decide_eq_false_iff_not]
    constructor
    · intro h
      have hle : clockwiseAngle v1 v2 ≤ π ∨ clockwiseAngle v1 v2 = 2 * π := by
        by_contra hc
        push Not at hc
        exact h ⟨hc.1, hc.2⟩
      have : 0 ≤ sin (clockwiseAngle v1 v2) := by
        rcases hle with hle | hle
        · exact sin_nonneg_of_nonneg_of_le_pi ha.le hle
        · rw [hle, sin_two_pi]
      rw [hs]
      nlinarith
    · rintro h ⟨hlt, hne⟩
      have hlt2 : clockwiseAngle v1 v2 < 2 * π := lt_of_le_of_ne hb hne
      have := sin_pos_of_pos_of_lt_pi (x := clockwiseAngle v1 v2 - π) (by linarith) (by linarith)
      rw [sin_sub_pi] at this
      rw [hs] at h
      nlinarith

/-- **C167.** A polygon whose vertices are all at the same place has no side: `is_convex` raises. -/
theorem C167_point_raises (pts : List (V2 ℝ)) (h : ∀ p ∈ pts, ∀ q ∈ pts, p = q) : isConvex pts = none := by
  have hs : sides pts = [] := by
    unfold sides
    split_ifs
    · rw [List.filter_eq_nil_iff]
      rintro ⟨a, b⟩ hab
      have hb := (List.of_mem_zip hab).2
      have := h a (List.of_mem_zip hab).1 b (by
        rcases List.mem_append.1 hb with hb | hb
        · exact List.mem_of_mem_tail hb
        · exact List.mem_of_mem_take hb)
      simpa using this
    · rfl
  unfold isConvex
  simp [hs]

/-- **C167.** For a polygon whose consecutive vertices differ, `is_convex` holds exactly when it never turns to the right and is found to be in
the trigonometric direction, or never turns to the left and is found to be clockwise. -/
theorem C167_is_convex_iff (pts : List (V2 ℝ)) (h3 : 3 ≤ pts.length) (h : ∀ i, vertex pts i ≠ vertex pts (i + 1)) :
    isConvex pts = some true ↔
      (isTrigo pts = some true ∧ ∀ i, 0 ≤ V2.cross (side pts i) (side pts (i + 1))) ∨
      (isTrigo pts = some false ∧ ∀ i, V2.cross (side pts i) (side pts (i + 1)) ≤ 0) := by
  have hl : (sides pts).length = pts.length := by
    rw [sides_all pts (by omega) h, List.length_zip, cyc_length, min_self]
  have hne : sides pts ≠ [] := by intro e; rw [e] at hl; simp at hl; omega
  have hall : ∀ b, (((sides pts).zip ((sides pts).tail ++ (sides pts).take 1)).all
      fun (p : (V2 ℝ × V2 ℝ) × (V2 ℝ × V2 ℝ)) => turnAccepted b (p.1.2 - p.1.1) (p.2.2 - p.2.1)) = true ↔
      ∀ i, turnAccepted b (side pts i) (side pts (i + 1)) = true := by
    intro b
    have hget : ∀ i (hi : i < ((sides pts).zip ((sides pts).tail ++ (sides pts).take 1)).length),
        ((sides pts).zip ((sides pts).tail ++ (sides pts).take 1))[i] =
          ((vertex pts i, vertex pts (i + 1)), (vertex pts (i + 1), vertex pts (i + 2))) := by
      intro i hi
      have hi3 : i < (sides pts).length := by
        rw [List.length_zip, cyc_length, min_self] at hi; exact hi
      rw [List.getElem_zip, cyc_getElem _ _ hi3, sides_getElem _ (by omega) h, sides_getElem _ (by omega) h]
      have e1 : vertex pts ((i + 1) % (sides pts).length) = vertex pts (i + 1) := by unfold vertex; rw [hl, Nat.mod_mod]
      have e2 : vertex pts ((i + 1) % (sides pts).length + 1) = vertex pts (i + 2) := by
        unfold vertex; rw [hl, Nat.mod_add_mod]
      rw [e1, e2]
    rw [List.all_eq_true]
    constructor
    · intro ha i
      have hi : i % pts.length < ((sides pts).zip ((sides pts).tail ++ (sides pts).take 1)).length := by
        rw [List.length_zip, cyc_length, min_self, hl]; exact Nat.mod_lt _ (by omega)
      have := ha _ (List.getElem_mem hi)
      rw [hget] at this
      dsimp only at this
      have e0 : vertex pts (i % pts.length) = vertex pts i := by unfold vertex; rw [Nat.mod_mod]
      rw [vertex_periodic, vertex_periodic, e0] at this
      exact this
    · intro ha x hx
      obtain ⟨i, hi, rfl⟩ := List.getElem_of_mem hx
      rw [hget]
      exact ha i
  unfold isConvex
  dsimp only
  rw [if_neg hne]
  rcases ht : isTrigo pts with _ | b
  · simp
  · dsimp only
    rw [Option.some.injEq, hall]
    cases b
    · simp only [Option.some.injEq, Bool.false_eq_true, false_and, false_or, true_and]
      exact forall_congr' fun i => (turnAccepted_iff (side_ne h i) (side_ne h (i + 1))).2
    · simp only [Option.some.injEq, Bool.true_eq_false, false_and, or_false, true_and]
      exact forall_congr' fun i => (turnAccepted_iff (side_ne h i) (side_ne h (i + 1))).1

/-- All the vertices are on the same side of each side line of the polygon: on the left if `s` is 1, on the right if it is -1. -/
def ConvexPosition (s : ℝ) (pts : List (V2 ℝ)) : Prop := ∀ i j, 0 ≤ s * V2.cross (side pts i) (vertex pts j - vertex pts i)

lemma cross_next (pts : List (V2 ℝ)) (i : ℕ) : V2.cross (side pts i) (side pts (i + 1)) = V2.cross (side pts i) (vertex pts (i + 2) - vertex pts i) := by
  unfold V2.cross side
  simp only [show ∀ p q : V2 ℝ, (p - q).x = p.x - q.x from fun _ _ => rfl, show ∀ p q : V2 ℝ, (p - q).y = p.y - q.y from fun _ _ => rfl]
  ring

lemma convex_aligned {s : ℝ} (hs : s = 1 ∨ s = -1) {pts : List (V2 ℝ)} (h : ∀ i, vertex pts i ≠ vertex pts (i + 1)) (hc : ConvexPosition s pts)
    (i : ℕ) (h0 : V2.cross (side pts i) (side pts (i + 1)) = 0) (hd : ¬ 0 < V2.dot (side pts i) (side pts (i + 1))) (j : ℕ) :
    V2.cross (side pts i) (vertex pts j - vertex pts i) = 0 := by
  have h1 := hc i j
  have h2 := hc (i + 1) j
  have hne := side_ne h i
  have hne' := side_ne h (i + 1)
  have e1 : V2.cross (side pts (i + 1)) (vertex pts j - vertex pts (i + 1)) =
      V2.cross (side pts (i + 1)) (vertex pts j - vertex pts i) + V2.cross (side pts i) (side pts (i + 1)) := by
    unfold V2.cross side
    simp only [show ∀ p q : V2 ℝ, (p - q).x = p.x - q.x from fun _ _ => rfl, show ∀ p q : V2 ℝ, (p - q).y = p.y - q.y from fun _ _ => rfl]
    ring
  rw [e1, h0, add_zero] at h2
  generalize side pts i = d at *
  generalize side pts (i + 1) = e at *
  generalize vertex pts j - vertex pts i = w at *
  have hdd : 0 < d.x * d.x + d.y * d.y := by
    have := norm2_pos hne
    have := norm2_sq d
    nlinarith
  have hee : 0 < e.x * e.x + e.y * e.y := by
    have := norm2_pos hne'
    have := norm2_sq e
    nlinarith
  unfold V2.cross V2.dot at *
  -- dot² + cross² = |d|² |e|²
  have hdot : d.x * e.x + d.y * e.y < 0 := by
    refine lt_of_le_of_ne (not_lt.1 hd) ?_
    intro hz
    have : (d.x * d.x + d.y * d.y) * (e.x * e.x + e.y * e.y) = 0 := by
      have : (d.x * d.x + d.y * d.y) * (e.x * e.x + e.y * e.y) = (d.x * e.x + d.y * e.y) ^ 2 + (d.x * e.y - d.y * e.x) ^ 2 := by ring
      rw [this, hz, h0]; ring
    have := mul_pos hdd hee
    linarith
  -- |d|² (e × w) = dot (d × w)
  have key : (d.x * d.x + d.y * d.y) * (e.x * w.y - e.y * w.x) = (d.x * e.x + d.y * e.y) * (d.x * w.y - d.y * w.x) := by
    linear_combination (-(d.x * w.x + d.y * w.y)) * h0
  have hss : s * s = 1 := by rcases hs with rfl | rfl <;> norm_num
  have k2 : (d.x * d.x + d.y * d.y) * (s * (e.x * w.y - e.y * w.x)) = (d.x * e.x + d.y * e.y) * (s * (d.x * w.y - d.y * w.x)) := by
    linear_combination s * key
  have k3 : s * (d.x * w.y - d.y * w.x) = 0 := by
    refine le_antisymm ?_ h1
    by_contra hlt
    push Not at hlt
    have a1 := mul_neg_of_neg_of_pos hdot hlt
    have a2 := mul_nonneg hdd.le h2
    linarith
  calc d.x * w.y - d.y * w.x = s * (s * (d.x * w.y - d.y * w.x)) := by rw [← mul_assoc, hss, one_mul]
    _ = 0 := by rw [k3, mul_zero]

/-- **C167.** A polygon in convex position, in either direction, is accepted (unless all its vertices are aligned). -/
theorem C167_convex_accepted (s : ℝ) (hs : s = 1 ∨ s = -1) (pts : List (V2 ℝ)) (h3 : 3 ≤ pts.length) (h : ∀ i, vertex pts i ≠ vertex pts (i + 1))
    (hc : ConvexPosition s pts) (hn : ∃ i, V2.cross (side pts i) (side pts (i + 1)) ≠ 0) : isConvex pts = some true := by
  rw [C167_is_convex_iff pts h3 h]
  have hturn : ∀ i, 0 ≤ s * V2.cross (side pts i) (side pts (i + 1)) := by
    intro i; rw [cross_next]; exact hc i (i + 2)
  obtain ⟨i0, hi0⟩ := hn
  rcases hs with rfl | rfl
  · left
    simp only [one_mul] at hturn
    refine ⟨C88_left_turns_partial pts h3 h (fun i => hturn i) ⟨i0 % pts.length, Nat.mod_lt _ (by omega), ?_⟩, hturn⟩
    have e0 : vertex pts (i0 % pts.length) = vertex pts i0 := by unfold vertex; rw [Nat.mod_mod]
    rw [vertex_periodic, vertex_periodic, e0]
    exact lt_of_le_of_ne (hturn i0) (Ne.symm hi0)
  · right
    have hneg : ∀ i, V2.cross (side pts i) (side pts (i + 1)) ≤ 0 := fun i => by have := hturn i; linarith
    refine ⟨C88_right_turns_partial pts h3 h (fun i => ?_), hneg⟩
    rcases lt_or_eq_of_le (hneg i) with hlt | heq
    · exact Or.inl hlt
    · right
      refine ⟨heq, ?_⟩
      by_contra hd
      have hal := convex_aligned (Or.inr rfl) h hc i heq hd
      -- all the vertices would be aligned
      apply hi0
      have a0 := hal i0
      have a1 := hal (i0 + 1)
      have a2 := hal (i0 + 2)
      have hne := side_ne h i
      have hdd : 0 < (side pts i).x * (side pts i).x + (side pts i).y * (side pts i).y := by
        have := norm2_pos hne
        have := norm2_sq (side pts i)
        nlinarith
      have b1 : V2.cross (side pts i) (side pts i0) = 0 := by
        have : V2.cross (side pts i) (side pts i0) = V2.cross (side pts i) (vertex pts (i0 + 1) - vertex pts i) -
            V2.cross (side pts i) (vertex pts i0 - vertex pts i) := by
          unfold V2.cross side
          simp only [show ∀ p q : V2 ℝ, (p - q).x = p.x - q.x from fun _ _ => rfl, show ∀ p q : V2 ℝ, (p - q).y = p.y - q.y from fun _ _ => rfl]
          ring
        rw [this, a0, a1, sub_zero]
      have b2 : V2.cross (side pts i) (side pts (i0 + 1)) = 0 := by
        have : V2.cross (side pts i) (side pts (i0 + 1)) = V2.cross (side pts i) (vertex pts (i0 + 2) - vertex pts i) -
            V2.cross (side pts i) (vertex pts (i0 + 1) - vertex pts i) := by
          unfold V2.cross side
          simp only [show ∀ p q : V2 ℝ, (p - q).x = p.x - q.x from fun _ _ => rfl, show ∀ p q : V2 ℝ, (p - q).y = p.y - q.y from fun _ _ => rfl]
          ring
        rw [this, a1, a2, sub_zero]
      generalize side pts i = d at *
      generalize side pts i0 = e at *
      generalize side pts (i0 + 1) = f at *
      unfold V2.cross at b1 b2 ⊢
      have : (d.x * d.x + d.y * d.y) * (e.x * f.y - e.y * f.x) = 0 := by
        linear_combination (e.x * d.x + e.y * d.y) * b2 - (f.x * d.x + f.y * d.y) * b1
      rcases mul_eq_zero.1 this with h | h
      · exact absurd h hdd.ne'
      · exact h

/-! ## The other way round -/

/-- The polygon turns once, to the left if `s` is 1 and to the right if it is -1: angles of its sides can be chosen along it, which change by
less than half a turn at each vertex and by one turn along the whole polygon. -/
def TurnsOnce (s : ℝ) (pts : List (V2 ℝ)) : Prop :=
  ∃ θ r : ℕ → ℝ, (∀ i, 0 < r i ∧ side pts i = ⟨r i * cos (θ i), r i * sin (θ i)⟩) ∧ (∀ i, |θ (i + 1) - θ i| < π) ∧
    ∀ i, θ (i + pts.length) = θ i + s * (2 * π)

lemma sum_nonneg_of {f : ℕ → ℝ} (h0 : f 0 = 0) : ∀ m : ℕ, (∀ k < m, 0 ≤ f (k + 1) - f k) → 0 ≤ f m := by
  intro m
  induction m with
  | zero => intro _; rw [h0]
  | succ m ih =>
    intro h
    have := ih fun k hk => h k (by omega)
    have := h m (by omega)
    linarith

lemma sum_down {f : ℕ → ℝ} (m : ℕ) : ∀ n : ℕ, m ≤ n → (∀ k, m ≤ k → k < n → f (k + 1) - f k ≤ 0) → f n ≤ f m := by
  intro n
  induction n with
  | zero => intro h _; obtain rfl : m = 0 := by omega
            exact le_rfl
  | succ n ih =>
    intro h hk
    rcases Nat.lt_or_ge n m with hlt | hge
    · obtain rfl : m = n + 1 := by omega
      exact le_rfl
    · have := ih hge fun k h1 h2 => hk k h1 (by omega)
      have := hk n hge (by omega)
      linarith

lemma vertex_add_length (pts : List (V2 ℝ)) (i : ℕ) : vertex pts (i + pts.length) = vertex pts i := by
  unfold vertex; rw [Nat.add_mod_right]

lemma vertex_reach (pts : List (V2 ℝ)) (h3 : 0 < pts.length) (i j : ℕ) : ∃ m < pts.length, vertex pts j = vertex pts (i + m) := by
  refine ⟨(j + (pts.length - i % pts.length)) % pts.length, Nat.mod_lt _ h3, ?_⟩
  unfold vertex
  congr 1
  have hi := Nat.mod_lt i h3
  rw [Nat.add_mod, Nat.mod_mod, ← Nat.add_mod]
  conv_rhs => rw [Nat.add_mod]
  have : i + (j + (pts.length - i % pts.length)) = j + pts.length * (i / pts.length + 1) := by
    have := Nat.mod_add_div i pts.length
    rw [mul_add, mul_one]
    omega
  rw [← Nat.add_mod, this, Nat.add_mul_mod_self_left]

lemma cross_polar (r r' a b : ℝ) : V2.cross (⟨r * cos a, r * sin a⟩ : V2 ℝ) ⟨r' * cos b, r' * sin b⟩ = r * r' * sin (b - a) := by
  unfold V2.cross
  rw [sin_sub]
  ring

lemma sign_sin {s : ℝ} (hs : s = 1 ∨ s = -1) (x : ℝ) : s * sin x = sin (s * x) := by
  rcases hs with rfl | rfl
  · simp
  · simp

lemma turns_monotone {s : ℝ} (hs : s = 1 ∨ s = -1) {pts : List (V2 ℝ)} {θ r : ℕ → ℝ}
    (hp : ∀ i, 0 < r i ∧ side pts i = ⟨r i * cos (θ i), r i * sin (θ i)⟩) (hlt : ∀ i, |θ (i + 1) - θ i| < π)
    (hturn : ∀ i, 0 ≤ s * V2.cross (side pts i) (side pts (i + 1))) : Monotone fun i => s * θ i := by
  apply monotone_nat_of_le_succ
  intro i
  have h := hturn i
  rw [(hp i).2, (hp (i + 1)).2, cross_polar] at h
  have hr := mul_pos (hp i).1 (hp (i + 1)).1
  have h' : 0 ≤ r i * r (i + 1) * sin (s * (θ (i + 1) - θ i)) := by
    rw [← sign_sin hs]; linarith
  have hsin : 0 ≤ sin (s * (θ (i + 1) - θ i)) := by
    by_contra hneg
    push Not at hneg
    have := mul_neg_of_pos_of_neg hr hneg
    linarith
  have habs : |s * (θ (i + 1) - θ i)| < π := by
    rw [abs_mul]
    rcases hs with rfl | rfl
    · simpa using hlt i
    · simpa using hlt i
  rw [abs_lt] at habs
  by_contra hc
  push Not at hc
  have := sin_neg_of_neg_of_neg_pi_lt (x := s * (θ (i + 1) - θ i)) (by linarith) habs.1
  linarith

/-- **C167.** A polygon found convex which turns once along its sides is in convex position: missing, to make it an equivalence, is that the
polygon turns once (see `C167_star_counterexample`). -/
theorem C167_convex_if_turns_once_partial (s : ℝ) (hs : s = 1 ∨ s = -1) (pts : List (V2 ℝ)) (h3 : 3 ≤ pts.length)
    (h : ∀ i, vertex pts i ≠ vertex pts (i + 1)) (hconv : isConvex pts = some true) (ht : TurnsOnce s pts) : ConvexPosition s pts := by
  obtain ⟨θ, r, hp, hlt, hper⟩ := ht
  have hpi := pi_pos
  have hss : s * s = 1 := by rcases hs with rfl | rfl <;> norm_num
  -- the polygon turns on the side announced
  have hturn : ∀ i, 0 ≤ s * V2.cross (side pts i) (side pts (i + 1)) := by
    have hopp : ¬ ∀ i, 0 ≤ (-s) * V2.cross (side pts i) (side pts (i + 1)) := by
      intro hc
      have hm := turns_monotone (s := -s) (by rcases hs with rfl | rfl <;> simp) hp hlt hc
      have := hm (show 0 ≤ 0 + pts.length by omega)
      dsimp only at this
      rw [hper 0] at this
      have : s * (s * (2 * π)) ≤ 0 := by linarith
      rw [← mul_assoc, hss] at this
      linarith
    rw [C167_is_convex_iff pts h3 h] at hconv
    rcases hs with rfl | rfl
    · rcases hconv with ⟨-, hc⟩ | ⟨-, hc⟩
      · intro i; rw [one_mul]; exact hc i
      · exact absurd (fun i => by have := hc i; linarith) hopp
    · rcases hconv with ⟨-, hc⟩ | ⟨-, hc⟩
      · exact absurd (fun i => by have := hc i; linarith) hopp
      · intro i; have := hc i; linarith
  have hmono := turns_monotone hs hp hlt hturn
  intro i j
  obtain ⟨m, hm, hv⟩ := vertex_reach pts (by omega) i j
  rw [hv]
  set f : ℕ → ℝ := fun k => s * V2.cross (side pts i) (vertex pts (i + k) - vertex pts i) with hf
  have hstep : ∀ k, f (k + 1) - f k = r i * r (i + k) * sin (s * (θ (i + k) - θ i)) := by
    intro k
    have : f (k + 1) - f k = s * V2.cross (side pts i) (side pts (i + k)) := by
      simp only [hf]
      unfold V2.cross side
      simp only [show ∀ p q : V2 ℝ, (p - q).x = p.x - q.x from fun _ _ => rfl, show ∀ p q : V2 ℝ, (p - q).y = p.y - q.y from fun _ _ => rfl]
      rw [show i + (k + 1) = i + k + 1 by omega]
      ring
    rw [this, (hp i).2, (hp (i + k)).2, cross_polar, ← sign_sin hs]
    ring
  have f0 : f 0 = 0 := by
    simp only [hf, add_zero]
    unfold V2.cross
    simp only [show ∀ p q : V2 ℝ, (p - q).x = p.x - q.x from fun _ _ => rfl, show ∀ p q : V2 ℝ, (p - q).y = p.y - q.y from fun _ _ => rfl]
    ring
  have fn : f pts.length = 0 := by
    simp only [hf]
    rw [vertex_add_length]
    unfold V2.cross
    simp only [show ∀ p q : V2 ℝ, (p - q).x = p.x - q.x from fun _ _ => rfl, show ∀ p q : V2 ℝ, (p - q).y = p.y - q.y from fun _ _ => rfl]
    ring
  have hlow : ∀ k, 0 ≤ s * (θ (i + k) - θ i) := by
    intro k
    have := hmono (show i ≤ i + k by omega)
    dsimp only at this
    linarith
  have hhigh : ∀ k, k ≤ pts.length → s * (θ (i + k) - θ i) ≤ 2 * π := by
    intro k hk
    have := hmono (show i + k ≤ i + pts.length by omega)
    dsimp only at this
    rw [hper i, mul_add, ← mul_assoc, hss] at this
    linarith
  show 0 ≤ f m
  by_cases hall : ∀ k < m, s * (θ (i + k) - θ i) ≤ π
  · apply sum_nonneg_of f0
    intro k hk
    rw [hstep]
    exact mul_nonneg (mul_nonneg (hp i).1.le (hp _).1.le) (sin_nonneg_of_nonneg_of_le_pi (hlow k) (hall k hk))
  · push Not at hall
    obtain ⟨k0, hk0, hgt⟩ := hall
    have := sum_down (f := f) m pts.length hm.le (by
      intro k hk1 hk2
      rw [hstep]
      have h1 := hmono (show i + k0 ≤ i + k by omega)
      dsimp only at h1
      have h2 := hhigh k hk2.le
      have : sin (s * (θ (i + k) - θ i)) ≤ 0 := by
        have := sin_nonneg_of_nonneg_of_le_pi (x := s * (θ (i + k) - θ i) - π) (by linarith) (by linarith)
        rw [sin_sub_pi] at this
        linarith
      have hr := mul_pos (hp i).1 (hp (i + k)).1
      nlinarith)
    rw [fn] at this
    exact this

/-- **C167.** With at most four vertices the answer is right: the polygon is found convex exactly when it is in convex position (unless
all its vertices are aligned). -/
theorem C167_quadrilateral (pts : List (V2 ℝ)) (h3 : 3 ≤ pts.length) (h4 : pts.length ≤ 4) (h : ∀ i, vertex pts i ≠ vertex pts (i + 1))
    (hn : ∃ i, V2.cross (side pts i) (side pts (i + 1)) ≠ 0) :
    isConvex pts = some true ↔ ConvexPosition 1 pts ∨ ConvexPosition (-1) pts := by
  constructor
  swap
  · rintro (hc | hc)
    · exact C167_convex_accepted 1 (Or.inl rfl) pts h3 h hc hn
    · exact C167_convex_accepted (-1) (Or.inr rfl) pts h3 h hc hn
  · intro hconv
    have key : ∀ s : ℝ, (∀ i, 0 ≤ s * V2.cross (side pts i) (side pts (i + 1))) → ConvexPosition s pts := by
      intro s hturn i j
      obtain ⟨m, hm, hv⟩ := vertex_reach pts (by omega) i j
      rw [hv]
      have hz : ∀ p q : V2 ℝ, V2.cross (p - q) (q - q) = 0 ∧ V2.cross (p - q) (p - q) = 0 := by
        intro p q
        unfold V2.cross
        simp only [show ∀ p q : V2 ℝ, (p - q).x = p.x - q.x from fun _ _ => rfl, show ∀ p q : V2 ℝ, (p - q).y = p.y - q.y from fun _ _ => rfl]
        constructor <;> ring
      have hlast : ∀ l, pts.length = l + 1 → 0 ≤ s * V2.cross (side pts i) (vertex pts (i + l) - vertex pts i) := by
        intro l hl
        have ht := hturn (i + l)
        have e1 : vertex pts (i + l + 1) = vertex pts i := by rw [show i + l + 1 = i + pts.length by omega]; exact vertex_add_length pts i
        have e2 : vertex pts (i + l + 1 + 1) = vertex pts (i + 1) := by
          rw [show i + l + 1 + 1 = i + 1 + pts.length by omega]; exact vertex_add_length pts (i + 1)
        unfold side at ht ⊢
        rw [e1, e2] at ht
        unfold V2.cross at ht ⊢
        simp only [show ∀ p q : V2 ℝ, (p - q).x = p.x - q.x from fun _ _ => rfl, show ∀ p q : V2 ℝ, (p - q).y = p.y - q.y from fun _ _ => rfl] at ht ⊢
        linarith
      rcases Nat.lt_or_ge m 2 with hm2 | hm2
      · interval_cases m
        · rw [add_zero]; unfold side; rw [(hz _ _).1, mul_zero]
        · unfold side; rw [(hz _ _).2, mul_zero]
      · rcases Nat.eq_or_lt_of_le hm2 with rfl | hm3
        · rw [← cross_next]; exact hturn i
        · exact hlast m (by omega)
    rw [C167_is_convex_iff pts h3 h] at hconv
    rcases hconv with ⟨-, hc⟩ | ⟨-, hc⟩
    · left; exact key 1 fun i => by rw [one_mul]; exact hc i
    · right; exact key (-1) fun i => by have := hc i; linarith

/-! ## The star -/

/-- The star with five branches, through its points. -/
def C167_star : List (V2 ℝ) := [⟨0, 3⟩, ⟨-2, -2⟩, ⟨3, 1⟩, ⟨-3, 1⟩, ⟨2, -2⟩]

/-- The polygons found convex are those in convex position. -/
def C167_is_convex_full_statement : Prop :=
  ∀ pts : List (V2 ℝ), 3 ≤ pts.length → (∀ i, vertex pts i ≠ vertex pts (i + 1)) → (∃ i, V2.cross (side pts i) (side pts (i + 1)) ≠ 0) →
    (isConvex pts = some true ↔ ConvexPosition 1 pts ∨ ConvexPosition (-1) pts)

lemma star_turn (i : ℕ) : vertex C167_star i ≠ vertex C167_star (i + 1) ∧ 0 < V2.cross (side C167_star i) (side C167_star (i + 1)) := by
  have hlen : C167_star.length = 5 := rfl
  have hmod : ∀ k, vertex C167_star (i + k) = vertex C167_star (i % 5 + k) := fun k => by
    rw [← hlen, vertex_periodic]
  have hm : i % 5 < 5 := Nat.mod_lt _ (by norm_num)
  have h0 := hmod 0
  rw [add_zero, add_zero] at h0
  unfold side
  rw [show i + 1 + 1 = i + 2 by omega, h0, hmod 1, hmod 2]
  generalize i % 5 = j at *
  unfold V2.cross
  simp only [show ∀ p q : V2 ℝ, (p - q).x = p.x - q.x from fun _ _ => rfl, show ∀ p q : V2 ℝ, (p - q).y = p.y - q.y from fun _ _ => rfl]
  interval_cases j <;> norm_num [vertex, C167_star]

/-- **C167 (counterexample).** A star with five branches, which turns twice, is found convex. -/
theorem C167_star_counterexample : isConvex C167_star = some true ∧ ¬ C167_is_convex_full_statement := by
  have h3 : 3 ≤ C167_star.length := by unfold C167_star; simp
  have hc : isConvex C167_star = some true := by
    rw [C167_is_convex_iff _ h3 fun i => (star_turn i).1]
    left
    refine ⟨C88_left_turns_partial _ h3 (fun i => (star_turn i).1) (fun i => (star_turn i).2.le) ⟨0, by omega, (star_turn 0).2⟩,
      fun i => (star_turn i).2.le⟩
  refine ⟨hc, fun hf => ?_⟩
  rcases (hf C167_star h3 (fun i => (star_turn i).1) ⟨0, (star_turn 0).2.ne'⟩).1 hc with h | h
  · have := h 2 0
    unfold side V2.cross at this
    simp only [show ∀ p q : V2 ℝ, (p - q).x = p.x - q.x from fun _ _ => rfl, show ∀ p q : V2 ℝ, (p - q).y = p.y - q.y from fun _ _ => rfl] at this
    norm_num [vertex, C167_star] at this
  · have := h 0 2
    unfold side V2.cross at this
    simp only [show ∀ p q : V2 ℝ, (p - q).x = p.x - q.x from fun _ _ => rfl, show ∀ p q : V2 ℝ, (p - q).y = p.y - q.y from fun _ _ => rfl] at this
    norm_num [vertex, C167_star] at this

/-! ## Non-vacuity -/

/-- A clockwise trapezium. -/
def C167_trapezium : List (V2 ℝ) := [⟨0, 0⟩, ⟨1, 2⟩, ⟨3, 2⟩, ⟨4, 0⟩]

lemma trapezium_turn (i : ℕ) :
    vertex C167_trapezium i ≠ vertex C167_trapezium (i + 1) ∧ V2.cross (side C167_trapezium i) (side C167_trapezium (i + 1)) < 0 := by
  have hlen : C167_trapezium.length = 4 := rfl
  have hmod : ∀ k, vertex C167_trapezium (i + k) = vertex C167_trapezium (i % 4 + k) := fun k => by
    rw [← hlen, vertex_periodic]
  have hm : i % 4 < 4 := Nat.mod_lt _ (by norm_num)
  have h0 := hmod 0
  rw [add_zero, add_zero] at h0
  unfold side
  rw [show i + 1 + 1 = i + 2 by omega, h0, hmod 1, hmod 2]
  generalize i % 4 = j at *
  unfold V2.cross
  simp only [show ∀ p q : V2 ℝ, (p - q).x = p.x - q.x from fun _ _ => rfl, show ∀ p q : V2 ℝ, (p - q).y = p.y - q.y from fun _ _ => rfl]
  interval_cases j <;> norm_num [vertex, C167_trapezium]

/-- The hypotheses of `C167_quadrilateral` and `C167_convex_accepted` are met by a clockwise trapezium. -/
example : isConvex C167_trapezium = some true ∧ ConvexPosition (-1) C167_trapezium := by
  have h3 : 3 ≤ C167_trapezium.length := by unfold C167_trapezium; simp
  have hc : isConvex C167_trapezium = some true := by
    rw [C167_is_convex_iff _ h3 fun i => (trapezium_turn i).1]
    exact Or.inr ⟨C88_right_turns_partial _ h3 (fun i => (trapezium_turn i).1) (fun i => Or.inl (trapezium_turn i).2),
      fun i => (trapezium_turn i).2.le⟩
  refine ⟨hc, ?_⟩
  rcases (C167_quadrilateral _ h3 (by unfold C167_trapezium; simp) (fun i => (trapezium_turn i).1) ⟨0, (trapezium_turn 0).2.ne⟩).1 hc with h | h
  · exfalso
    have h1 := h 0 2
    have h2 := (trapezium_turn 0).2
    rw [cross_next] at h2
    linarith
  · exact h

/-- The unit square turns once. -/
example : TurnsOnce 1 [⟨0, 0⟩, ⟨1, 0⟩, ⟨1, 1⟩, ⟨0, 1⟩] := by
  have hpi := pi_pos
  refine ⟨fun i => i * (π / 2), fun _ => 1, fun i => ⟨one_pos, ?_⟩, fun i => ?_, fun i => ?_⟩
  · have hm : i % 4 < 4 := Nat.mod_lt _ (by norm_num)
    have hv : ∀ k, vertex [⟨0, 0⟩, ⟨1, 0⟩, ⟨1, 1⟩, ⟨0, 1⟩] (i + k) = vertex [⟨0, 0⟩, ⟨1, 0⟩, ⟨1, 1⟩, ⟨0, 1⟩] (i % 4 + k) := fun k =>
      (vertex_periodic [⟨0, 0⟩, ⟨1, 0⟩, ⟨1, 1⟩, ⟨0, 1⟩] i k).symm
    have h0 := hv 0
    rw [add_zero, add_zero] at h0
    have hang : (i : ℝ) * (π / 2) = (i % 4 : ℕ) * (π / 2) + (i / 4 : ℕ) * (2 * π) := by
      have : (i : ℝ) = (i % 4 : ℕ) + 4 * (i / 4 : ℕ) := by exact_mod_cast (Nat.mod_add_div i 4).symm
      rw [this]; push_cast; ring_nf
    unfold side
    dsimp only
    rw [h0, hv 1, hang, cos_add_nat_mul_two_pi, sin_add_nat_mul_two_pi]
    generalize i % 4 = j at *
    have e2 : (2 : ℝ) * (π / 2) = π := by ring
    have e3 : (3 : ℝ) * (π / 2) = π + π / 2 := by ring
    ext
    · simp only [show ∀ p q : V2 ℝ, (p - q).x = p.x - q.x from fun _ _ => rfl]
      interval_cases j <;> simp [vertex, e2, e3, cos_add]
    · simp only [show ∀ p q : V2 ℝ, (p - q).y = p.y - q.y from fun _ _ => rfl]
      interval_cases j <;> simp [vertex, e2, e3, sin_add]
  · push_cast
    rw [show ((i : ℝ) + 1) * (π / 2) - i * (π / 2) = π / 2 by ring, abs_of_pos (by linarith)]
    linarith
  · simp only [List.length_cons, List.length_nil]
    push_cast
    ring

end Volmdlr.Hull
