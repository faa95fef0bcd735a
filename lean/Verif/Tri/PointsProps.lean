import Verif.Tri.SubdivideProps
import Mathlib.Algebra.Order.Floor.Ring

/-!
# Description of a triangle by points (C101)
-/

namespace Volmdlr.Triangles

/-- The point at the fraction `μ` of the row at the fraction `l` of the first side, counted from the second point. -/
def grid (t : Tri) (l μ : ℝ) : V3 ℝ := comb t (l * (1 - μ)) (1 - l) (l * μ)

lemma grid_inTri (t : Tri) {l μ : ℝ} (h0 : 0 ≤ l) (h1 : l ≤ 1) (k0 : 0 ≤ μ) (k1 : μ ≤ 1) : InTri t (grid t l μ) :=
  ⟨l * (1 - μ), 1 - l, l * μ, mul_nonneg h0 (by linarith), by linarith, mul_nonneg h0 k0, by ring, rfl⟩

lemma inTri_grid (t : Tri) (p : V3 ℝ) (h : InTri t p) : ∃ l μ, 0 ≤ l ∧ l ≤ 1 ∧ 0 ≤ μ ∧ μ ≤ 1 ∧ p = grid t l μ := by
  obtain ⟨α, β, γ, h1, h2, h3, hs, rfl⟩ := h
  by_cases h0 : α + γ = 0
  · refine ⟨0, 0, le_rfl, zero_le_one, le_rfl, zero_le_one, ?_⟩
    have : α = 0 := by linarith
    have : γ = 0 := by linarith
    have : β = 1 := by linarith
    subst_vars
    simp [grid]
  · have hp : 0 < α + γ := lt_of_le_of_ne (by linarith) (Ne.symm h0)
    refine ⟨α + γ, γ / (α + γ), hp.le, by linarith, div_nonneg h3 hp.le, (div_le_one hp).2 (by linarith), ?_⟩
    unfold grid
    have e1 : (α + γ) * (1 - γ / (α + γ)) = α := by field_simp; ring
    have e2 : (α + γ) * (γ / (α + γ)) = γ := by field_simp
    rw [e1, e2, show 1 - (α + γ) = β by linarith]

lemma grid_along (t : Tri) (L l l' μ : ℝ) (h1 : V3.pointDistance t.1 t.2.1 ≤ L) (h2 : V3.pointDistance t.2.1 t.2.2 ≤ L) (k0 : 0 ≤ μ) (k1 : μ ≤ 1) :
    V3.pointDistance (grid t l μ) (grid t l' μ) ≤ |l - l'| * L := by
  have hL : 0 ≤ L := (pd_nonneg _ _).trans h1
  refine (sq_le_sq₀ (pd_nonneg _ _) (mul_nonneg (abs_nonneg _) hL)).1 ?_
  have a1 := pow_le_pow_left₀ (pd_nonneg _ _) h1 2
  have a2 := pow_le_pow_left₀ (pd_nonneg _ _) h2 2
  rw [pd_sq] at a1 a2 ⊢
  rw [mul_pow, sq_abs]
  obtain ⟨⟨x1, y1, z1⟩, ⟨x2, y2, z2⟩, ⟨x3, y3, z3⟩⟩ := t
  simp only [grid, comb, V3.add_x, V3.add_y, V3.add_z, V3.smul_x, V3.smul_y, V3.smul_z] at *
  have hm : 0 ≤ μ * (1 - μ) := mul_nonneg k0 (by linarith)
  have key : ((1 - μ) * (x1 - x2) + μ * (x3 - x2)) ^ 2 + ((1 - μ) * (y1 - y2) + μ * (y3 - y2)) ^ 2 + ((1 - μ) * (z1 - z2) + μ * (z3 - z2)) ^ 2 ≤ L ^ 2 := by
    have e : ((1 - μ) * (x1 - x2) + μ * (x3 - x2)) ^ 2 + ((1 - μ) * (y1 - y2) + μ * (y3 - y2)) ^ 2 + ((1 - μ) * (z1 - z2) + μ * (z3 - z2)) ^ 2 =
      (1 - μ) * ((x1 - x2) ^ 2 + (y1 - y2) ^ 2 + (z1 - z2) ^ 2) + μ * ((x2 - x3) ^ 2 + (y2 - y3) ^ 2 + (z2 - z3) ^ 2)
        - μ * (1 - μ) * ((x1 - x3) ^ 2 + (y1 - y3) ^ 2 + (z1 - z3) ^ 2) := by ring
    rw [e]
    have b1 := mul_le_mul_of_nonneg_left a1 (show 0 ≤ 1 - μ by linarith)
    have b2 := mul_le_mul_of_nonneg_left a2 k0
    have b3 : 0 ≤ μ * (1 - μ) * ((x1 - x3) ^ 2 + (y1 - y3) ^ 2 + (z1 - z3) ^ 2) := mul_nonneg hm (by positivity)
    linarith
  refine le_trans (le_of_eq ?_) (mul_le_mul_of_nonneg_left key (sq_nonneg (l - l')))
  ring

lemma grid_across (t : Tri) (l μ μ' : ℝ) (h0 : 0 ≤ l) :
    V3.pointDistance (grid t l μ) (grid t l μ') = |μ - μ'| * (l * V3.pointDistance t.2.2 t.1) := by
  refine (sq_eq_sq₀ (pd_nonneg _ _) (mul_nonneg (abs_nonneg _) (mul_nonneg h0 (pd_nonneg _ _)))).1 ?_
  rw [mul_pow, mul_pow, sq_abs, pd_sq, pd_sq]
  simp only [grid, comb, V3.add_x, V3.add_y, V3.add_z, V3.smul_x, V3.smul_y, V3.smul_z]
  ring

/-- The positions of the rows. -/
noncomputable def rowAt (res L : ℝ) (k : ℕ) : ℝ := min (k * res) L / L

/-- The number of steps of a row of length `len`. -/
noncomputable def rowSteps (res len : ℝ) : ℕ := ⌊len / res⌋₊ + 1

lemma rowAt_range {res L : ℝ} (hr : 0 < res) (hL : 0 < L) (k : ℕ) : 0 ≤ rowAt res L k ∧ rowAt res L k ≤ 1 := by
  unfold rowAt
  exact ⟨div_nonneg (le_min (by positivity) hL.le) hL.le, (div_le_one hL).2 (min_le_right _ _)⟩

lemma unit_norm {u v : V3 ℝ} (h : V3.unitVector u = some v) : V3.norm u ≠ 0 ∧ u = V3.smul (V3.norm u) v := by
  obtain ⟨h1, h2, -⟩ := V3.unitVector_spec h
  exact ⟨h1.ne', h2⟩

lemma mapM_map {α β : Type*} (f : α → Option β) (g : α → β) (l : List α) (h : ∀ a ∈ l, f a = some (g a)) : l.mapM f = some (l.map g) := by
  induction l with
  | nil => rfl
  | cons a l ih =>
    rw [List.mapM_cons, h a List.mem_cons_self, ih (fun b hb => h b (List.mem_cons_of_mem _ hb))]
    rfl

lemma step_point (q r z : V3 ℝ) (hz : V3.unitVector (r - q) = some z) (n i : ℕ) (hn : 0 < n) (hi : i ≤ n) :
    min (i * (V3.pointDistance r q / n)) (V3.pointDistance r q) = i / n * V3.pointDistance r q ∧
    q + V3.smul (i / n * V3.pointDistance r q) z = q + V3.smul ((i : ℝ) / n) (r - q) := by
  have hn' : (0 : ℝ) < n := by exact_mod_cast hn
  have hi' : (i : ℝ) ≤ n := by exact_mod_cast hi
  have h1 : (i : ℝ) / n ≤ 1 := (div_le_one hn').2 hi'
  obtain ⟨-, e⟩ := unit_norm hz
  constructor
  · rw [show (i : ℝ) * (V3.pointDistance r q / n) = i / n * V3.pointDistance r q by ring]
    exact min_eq_left (by nlinarith [pd_nonneg r q])
  · rw [e]
    change q + V3.smul (i / n * V3.norm (r - q)) z = _
    ext <;> simp <;> ring

/-- The row of a point of the first side. -/
lemma row_eq (t : Tri) {res L : ℝ} (hr : 0 < res) (hL : V3.pointDistance t.1 t.2.1 = L) (hL0 : 0 < L) {w : V3 ℝ}
    (hw : V3.unitVector (t.2.2 - t.2.1) = some w) (k : ℕ) :
    ∃ l, rowPoints t.2.1 w res L (V3.pointDistance t.2.2 t.2.1) (grid t (rowAt res L k) 0) = some l ∧
      ∀ q, q ∈ l ↔ ∃ i : ℕ, 1 ≤ i ∧ i ≤ rowSteps res (rowAt res L k * V3.pointDistance t.2.2 t.1) ∧
        q = grid t (rowAt res L k) (i / rowSteps res (rowAt res L k * V3.pointDistance t.2.2 t.1)) := by
  obtain ⟨h0, h1⟩ := rowAt_range hr hL0 k
  generalize rowAt res L k = l at h0 h1
  obtain ⟨-, ew⟩ := unit_norm hw
  have hG : V3.norm (t.2.2 - t.2.1) = V3.pointDistance t.2.2 t.2.1 := rfl
  rw [hG] at ew
  have hd : V3.pointDistance t.2.1 (grid t l 0) = l * L := by
    rw [← hL]
    refine (sq_eq_sq₀ (pd_nonneg _ _) (mul_nonneg h0 (pd_nonneg _ _))).1 ?_
    rw [mul_pow, pd_sq, pd_sq]
    simp only [grid, comb, V3.add_x, V3.add_y, V3.add_z, V3.smul_x, V3.smul_y, V3.smul_z]
    ring
  have hmin : min (V3.pointDistance t.2.1 (grid t l 0) * V3.pointDistance t.2.2 t.2.1 / L) (V3.pointDistance t.2.2 t.2.1) =
      l * V3.pointDistance t.2.2 t.2.1 := by
    rw [hd, show l * L * V3.pointDistance t.2.2 t.2.1 / L = l * V3.pointDistance t.2.2 t.2.1 by field_simp]
    exact min_eq_left (by nlinarith [pd_nonneg t.2.2 t.2.1])
  have hrr : t.2.1 + V3.smul (l * V3.pointDistance t.2.2 t.2.1) w = grid t l 1 := by
    have x := congrArg V3.x ew
    have y := congrArg V3.y ew
    have z := congrArg V3.z ew
    simp only [V3.sub_x, V3.sub_y, V3.sub_z, V3.smul_x, V3.smul_y, V3.smul_z] at x y z
    ext <;> simp only [grid, comb, V3.add_x, V3.add_y, V3.add_z, V3.smul_x, V3.smul_y, V3.smul_z]
    · linear_combination -l * x
    · linear_combination -l * y
    · linear_combination -l * z
  have hlen : V3.pointDistance (grid t l 1) (grid t l 0) = l * V3.pointDistance t.2.2 t.1 := by
    rw [grid_across t l 1 0 h0]; simp
  unfold rowPoints
  dsimp only
  rw [hmin, hrr, hlen]
  unfold rowSteps
  obtain ⟨m, hm⟩ : ∃ m, m = ⌊l * V3.pointDistance t.2.2 t.1 / res⌋₊ := ⟨_, rfl⟩
  rw [← hm]
  by_cases h2 : m + 2 = 2
  · rw [if_pos h2]
    have : m = 0 := by omega
    refine ⟨_, rfl, fun q => ?_⟩
    rw [this, List.mem_singleton]
    constructor
    · rintro rfl; exact ⟨1, le_rfl, le_rfl, by simp⟩
    · rintro ⟨i, hi, hi', rfl⟩
      have : i = 1 := by omega
      subst this; simp
  · rw [if_neg h2]
    have hpos : 0 < l * V3.pointDistance t.2.2 t.1 := by
      by_contra hc
      have : l * V3.pointDistance t.2.2 t.1 = 0 := le_antisymm (not_lt.1 hc) (mul_nonneg h0 (pd_nonneg _ _))
      rw [this] at hm
      simp at hm
      exact h2 (by rw [hm])
    obtain ⟨z, hz⟩ := V3.unitVector_some (u := grid t l 1 - grid t l 0) (by
      rw [Ne, ← V3.norm_eq_zero_iff]
      change V3.pointDistance (grid t l 1) (grid t l 0) ≠ 0
      rw [hlen]; exact hpos.ne')
    rw [hz]
    refine ⟨_, rfl, fun q => ?_⟩
    have hpt : ∀ i : ℕ, i ≤ m + 1 → min (i * (l * V3.pointDistance t.2.2 t.1 / (m + 2 - 1 : ℕ))) (l * V3.pointDistance t.2.2 t.1) =
        i / (m + 1 : ℕ) * (l * V3.pointDistance t.2.2 t.1) ∧
        grid t l 0 + V3.smul (i / (m + 1 : ℕ) * (l * V3.pointDistance t.2.2 t.1)) z = grid t l (i / (m + 1 : ℕ)) := by
      intro i hi
      have := step_point (grid t l 0) (grid t l 1) z hz (m + 1) i (Nat.succ_pos _) hi
      rw [hlen] at this
      refine ⟨this.1, this.2.trans ?_⟩
      ext <;> simp only [grid, comb, V3.add_x, V3.add_y, V3.add_z, V3.sub_x, V3.sub_y, V3.sub_z, V3.smul_x, V3.smul_y, V3.smul_z] <;> ring
    simp only [List.mem_map, List.mem_filter, List.mem_range, decide_eq_true_eq]
    constructor
    · rintro ⟨i, ⟨hi, hne⟩, rfl⟩
      have hi' : i ≤ m + 1 := by omega
      refine ⟨i, ?_, hi', ?_⟩
      · by_contra hc
        have : i = 0 := by omega
        subst this
        refine hne ?_
        rw [(hpt 0 (by omega)).1]; simp
      · rw [(hpt i hi').1, (hpt i hi').2]
    · rintro ⟨i, hi, hi', rfl⟩
      refine ⟨i, ⟨by omega, ?_⟩, ?_⟩
      · rw [(hpt i hi').1]
        have : (0 : ℝ) < i := by exact_mod_cast hi
        positivity
      · rw [(hpt i hi').1, (hpt i hi').2]

lemma mem_side (t : Tri) {res L : ℝ} (hL : V3.pointDistance t.1 t.2.1 = L) (hL0 : 0 < L) {v : V3 ℝ} (hv : V3.unitVector (t.1 - t.2.1) = some v) :
    ∀ q, q ∈ sidePoints t.2.1 v res L ↔ ∃ k : ℕ, k ≤ ⌊L / res⌋₊ + 1 ∧ q = grid t (rowAt res L k) 0 := by
  intro q
  obtain ⟨-, ev⟩ := unit_norm hv
  have e : ∀ d : ℝ, t.2.1 + V3.smul d v = grid t (d / L) 0 := by
    intro d
    change t.1 - t.2.1 = V3.smul (V3.pointDistance t.1 t.2.1) v at ev
    rw [hL] at ev
    have x := congrArg V3.x ev
    have y := congrArg V3.y ev
    have z := congrArg V3.z ev
    simp only [V3.sub_x, V3.sub_y, V3.sub_z, V3.smul_x, V3.smul_y, V3.smul_z] at x y z
    have hd : d = d / L * L := by field_simp
    generalize d / L = k at hd
    subst hd
    ext <;> simp only [grid, comb, V3.add_x, V3.add_y, V3.add_z, V3.smul_x, V3.smul_y, V3.smul_z]
    · linear_combination -k * x
    · linear_combination -k * y
    · linear_combination -k * z
  have e0 : t.2.1 = grid t (rowAt res L 0) 0 := by
    have : rowAt res L 0 = 0 := by simp [rowAt, min_eq_left hL0.le]
    rw [this]
    ext <;> simp [grid, comb]
  unfold sidePoints
  simp only [List.mem_cons, List.mem_map, List.mem_range]
  constructor
  · rintro (rfl | ⟨k, hk, rfl⟩)
    · exact ⟨0, by omega, e0⟩
    · exact ⟨k + 1, by omega, e _⟩
  · rintro ⟨k, hk, rfl⟩
    cases k with
    | zero => exact Or.inl e0.symm
    | succ k => exact Or.inr ⟨k, by omega, e _⟩

/-- The points returned. -/
lemma points_spec (t : Tri) {res L : ℝ} (hr : 0 < res) (hL : V3.pointDistance t.1 t.2.1 = L) (hL0 : 0 < L) (hG : t.2.2 ≠ t.2.1) :
    ∃ l, subdescriptionPoints t res L = some l ∧
      ∀ q, q ∈ l ↔ ∃ k i : ℕ, k ≤ ⌊L / res⌋₊ + 1 ∧ i ≤ rowSteps res (rowAt res L k * V3.pointDistance t.2.2 t.1) ∧
        q = grid t (rowAt res L k) (i / rowSteps res (rowAt res L k * V3.pointDistance t.2.2 t.1)) := by
  obtain ⟨v, hv⟩ := V3.unitVector_some (u := t.1 - t.2.1) (by
    rw [Ne, ← V3.norm_eq_zero_iff]
    change V3.pointDistance t.1 t.2.1 ≠ 0
    rw [hL]; exact hL0.ne')
  obtain ⟨w, hw⟩ := V3.unitVector_some (u := t.2.2 - t.2.1) (by rw [Ne, V3.sub_eq_zero_iff]; exact Ne.symm hG)
  have hrow : ∀ q ∈ sidePoints t.2.1 v res L, ∃ l, rowPoints t.2.1 w res L (V3.pointDistance t.2.2 t.2.1) q = some l := by
    intro q hq
    obtain ⟨k, -, rfl⟩ := (mem_side t hL hL0 hv q).1 hq
    obtain ⟨l, hl, -⟩ := row_eq t hr hL hL0 hw k
    exact ⟨l, hl⟩
  have hmap := mapM_map (rowPoints t.2.1 w res L (V3.pointDistance t.2.2 t.2.1))
    (fun q => (rowPoints t.2.1 w res L (V3.pointDistance t.2.2 t.2.1) q).getD []) (sidePoints t.2.1 v res L) (by
      intro q hq
      obtain ⟨l, hl⟩ := hrow q hq
      rw [hl]; rfl)
  refine ⟨(sidePoints t.2.1 v res L) ++ ((sidePoints t.2.1 v res L).map
      (fun q => (rowPoints t.2.1 w res L (V3.pointDistance t.2.2 t.2.1) q).getD [])).flatten, ?_, ?_⟩
  · unfold subdescriptionPoints
    rw [hv, hw]
    simp only [Option.bind_some]
    rw [hmap]
    rfl
  · intro q
    rw [List.mem_append, mem_side t hL hL0 hv, List.mem_flatten]
    simp only [List.mem_map]
    constructor
    · rintro (⟨k, hk, rfl⟩ | ⟨l, ⟨s, hs, rfl⟩, hq⟩)
      · exact ⟨k, 0, hk, by omega, by simp⟩
      · obtain ⟨k, hk, rfl⟩ := (mem_side t hL hL0 hv s).1 hs
        obtain ⟨l, hl, hmem⟩ := row_eq t hr hL hL0 hw k
        rw [hl] at hq
        obtain ⟨i, -, hi, rfl⟩ := (hmem q).1 hq
        exact ⟨k, i, hk, hi, rfl⟩
    · rintro ⟨k, i, hk, hi, rfl⟩
      cases i with
      | zero => exact Or.inl ⟨k, hk, by simp⟩
      | succ i =>
        refine Or.inr ⟨_, ⟨_, (mem_side t hL hL0 hv _).2 ⟨k, hk, rfl⟩, rfl⟩, ?_⟩
        obtain ⟨l, hl, hmem⟩ := row_eq t hr hL hL0 hw k
        rw [hl]
        exact (hmem _).2 ⟨i + 1, by omega, hi, rfl⟩

/-! ## Every point has a neighbour -/

lemma near_row {res L l : ℝ} (hr : 0 < res) (hL : 0 < L) (h0 : 0 ≤ l) (h1 : l ≤ 1) :
    ∃ k : ℕ, k ≤ ⌊L / res⌋₊ + 1 ∧ |l - rowAt res L k| * L ≤ res / 2 := by
  have hx0 : 0 ≤ l * L / res := div_nonneg (mul_nonneg h0 hL.le) hr.le
  have a1 := Nat.floor_le hx0
  have a2 := Nat.lt_floor_add_one (l * L / res)
  have hk : ⌊l * L / res⌋₊ ≤ ⌊L / res⌋₊ := Nat.floor_le_floor (by gcongr; nlinarith)
  generalize ⌊l * L / res⌋₊ = k at *
  rw [le_div_iff₀ hr] at a1
  rw [div_lt_iff₀ hr] at a2
  have hlL : l * L ≤ L := by nlinarith
  have e : ∀ j : ℕ, |l - rowAt res L j| * L = |l * L - min (j * res) L| := by
    intro j
    unfold rowAt
    rw [show l - min ((j : ℝ) * res) L / L = (l * L - min (j * res) L) / L by field_simp, abs_div, abs_of_pos hL]
    field_simp
  by_cases hh : l * L - k * res ≤ res / 2
  · refine ⟨k, by omega, ?_⟩
    rw [e, min_eq_left (by linarith), abs_le]
    constructor <;> linarith
  · refine ⟨k + 1, by omega, ?_⟩
    rw [e, abs_le]
    push_cast
    have m1 : l * L ≤ min ((k + 1) * res) L := le_min a2.le hlL
    have m2 := min_le_left ((k + 1 : ℝ) * res) L
    constructor <;> linarith

lemma near_step {res len μ : ℝ} (hr : 0 < res) (hlen : 0 ≤ len) (h0 : 0 ≤ μ) (h1 : μ ≤ 1) :
    ∃ i : ℕ, i ≤ rowSteps res len ∧ |μ - i / rowSteps res len| * len ≤ res / 2 := by
  have b2 := Nat.lt_floor_add_one (len / res)
  have hn : (0 : ℝ) < (rowSteps res len : ℕ) := by unfold rowSteps; positivity
  have hln : len ≤ rowSteps res len * res := by
    unfold rowSteps
    push_cast
    rw [div_lt_iff₀ hr] at b2
    exact b2.le
  generalize rowSteps res len = n at *
  have hx0 : 0 ≤ μ * n := by positivity
  have a1 := Nat.floor_le hx0
  have a2 := Nat.lt_floor_add_one (μ * n)
  have hk : ⌊μ * n⌋₊ ≤ n := by
    have : ⌊μ * n⌋₊ ≤ ⌊(n : ℝ)⌋₊ := Nat.floor_le_floor (by nlinarith)
    simpa using this
  generalize ⌊μ * n⌋₊ = i at *
  have fin : ∀ j : ℕ, |μ * n - j| ≤ 1 / 2 → |μ - j / n| * len ≤ res / 2 := by
    intro j hj
    have e : |μ - j / n| = |μ * n - j| / n := by
      rw [show μ - (j : ℝ) / n = (μ * n - j) / n by field_simp, abs_div, abs_of_pos hn]
    rw [e, div_mul_eq_mul_div, div_le_iff₀ hn]
    have := abs_nonneg (μ * n - j)
    calc |μ * n - j| * len ≤ 1 / 2 * len := by gcongr
      _ ≤ res / 2 * n := by linarith
  by_cases hh : μ * n - i ≤ 1 / 2
  · exact ⟨i, hk, fin i (abs_le.2 ⟨by linarith, hh⟩)⟩
  · refine ⟨i + 1, ?_, fin (i + 1) ?_⟩
    · have : (i : ℝ) < n := by nlinarith
      have : i < n := by exact_mod_cast this
      omega
    · push_cast
      exact abs_le.2 ⟨by linarith, by linarith⟩

lemma dist_vertex (t : Tri) (d : ℝ) (h : SidesLe d t) (p : V3 ℝ) (hp : InTri t p) : V3.pointDistance p t.2.1 ≤ d := by
  obtain ⟨l, μ, h0, h1, k0, k1, rfl⟩ := inTri_grid t p hp
  have e : t.2.1 = grid t 0 μ := by unfold grid comb; ext <;> simp
  have := grid_along t d l 0 μ h.1 h.2.1 k0 k1
  rw [← e, sub_zero, abs_of_nonneg h0] at this
  have hd : 0 ≤ d := (pd_nonneg _ _).trans h.1
  nlinarith

/-- C101: the points describing a triangle which is not flat: they are in the triangle, the three points of the triangle are among them, and every point
of the triangle is at most the resolution away from one of them. -/
theorem C101_points (t : Tri) (ht : area t ≠ 0) (resolution : ℝ) (hr : 0 < resolution) :
    ∃ l, subdescription t resolution = some l ∧
      (∀ q ∈ l, InTri t q) ∧ (t.1 ∈ l ∧ t.2.1 ∈ l ∧ t.2.2 ∈ l) ∧
      ∀ p, InTri t p → ∃ q ∈ l, V3.pointDistance p q ≤ resolution := by
  unfold subdescription
  by_cases hm : maxLength t ≤ resolution
  · rw [if_pos hm]
    refine ⟨_, rfl, ?_, by simp, ?_⟩
    · intro q hq
      simp only [List.mem_cons, List.not_mem_nil, or_false] at hq
      rcases hq with rfl | rfl | rfl
      · exact ⟨1, 0, 0, by norm_num, le_rfl, le_rfl, by norm_num, by unfold comb; ext <;> simp⟩
      · exact ⟨0, 1, 0, le_rfl, by norm_num, le_rfl, by norm_num, by unfold comb; ext <;> simp⟩
      · exact ⟨0, 0, 1, le_rfl, le_rfl, by norm_num, by norm_num, by unfold comb; ext <;> simp⟩
    · intro p hp
      exact ⟨t.2.1, by simp, dist_vertex t resolution ((sidesLe_iff t _).2 hm) p hp⟩
  · rw [if_neg hm]
    have hc := turned_cyclic t
    have hlong := turned_longest t
    have hsides := (hc.sidesLe (maxLength t)).2 ((sidesLe_iff t _).2 le_rfl)
    have harea := hc.area
    have hin := hc.inTri
    have hvert : ∀ l : List (V3 ℝ), ((turned t).1 ∈ l ∧ (turned t).2.1 ∈ l ∧ (turned t).2.2 ∈ l) → (t.1 ∈ l ∧ t.2.1 ∈ l ∧ t.2.2 ∈ l) := by
      intro l h
      rcases hc with e | e | e <;> rw [e] at h
      · exact h
      · exact ⟨h.2.2, h.1, h.2.1⟩
      · exact ⟨h.2.1, h.2.2, h.1⟩
    generalize turned t = u at *
    generalize maxLength t = L at *
    have hL0 : 0 < L := lt_trans hr (not_le.1 hm)
    have hG : u.2.2 ≠ u.2.1 := by
      intro e
      refine ht ?_
      rw [← harea, C99_area, e]
      have : V3.cross (u.2.1 - u.1) (u.2.1 - u.1) = ⟨0, 0, 0⟩ := by ext <;> simp [V3.cross] <;> ring
      rw [this]; simp [V3.norm]
    obtain ⟨l, hl, hmem⟩ := points_spec u hr hlong hL0 hG
    refine ⟨l, hl, ?_, hvert l ⟨?_, ?_, ?_⟩, ?_⟩
    · intro q hq
      obtain ⟨k, i, -, hi, rfl⟩ := (hmem q).1 hq
      rw [← hin]
      obtain ⟨a, b⟩ := rowAt_range hr hL0 k
      have hn : (0 : ℝ) < (rowSteps resolution (rowAt resolution L k * V3.pointDistance u.2.2 u.1) : ℕ) := by unfold rowSteps; positivity
      refine grid_inTri u a b (by positivity) ((div_le_one hn).2 (by exact_mod_cast hi))
    · refine (hmem _).2 ⟨⌊L / resolution⌋₊ + 1, 0, le_rfl, by omega, ?_⟩
      have : rowAt resolution L (⌊L / resolution⌋₊ + 1) = 1 := by
        unfold rowAt
        rw [min_eq_right, div_self hL0.ne']
        have := Nat.lt_floor_add_one (L / resolution)
        rw [div_lt_iff₀ hr] at this
        push_cast
        exact this.le
      rw [this]
      unfold grid comb
      ext <;> simp
    · refine (hmem _).2 ⟨0, 0, by omega, by omega, ?_⟩
      have : rowAt resolution L 0 = 0 := by simp [rowAt, min_eq_left hL0.le]
      rw [this]
      unfold grid comb
      ext <;> simp
    · refine (hmem _).2 ⟨⌊L / resolution⌋₊ + 1, rowSteps resolution (rowAt resolution L (⌊L / resolution⌋₊ + 1) * V3.pointDistance u.2.2 u.1), le_rfl, le_rfl, ?_⟩
      have hn : (0 : ℝ) < (rowSteps resolution (rowAt resolution L (⌊L / resolution⌋₊ + 1) * V3.pointDistance u.2.2 u.1) : ℕ) := by unfold rowSteps; positivity
      rw [div_self hn.ne']
      have : rowAt resolution L (⌊L / resolution⌋₊ + 1) = 1 := by
        unfold rowAt
        rw [min_eq_right, div_self hL0.ne']
        have := Nat.lt_floor_add_one (L / resolution)
        rw [div_lt_iff₀ hr] at this
        push_cast
        exact this.le
      rw [this]
      unfold grid comb
      ext <;> simp
    · intro p hp
      obtain ⟨a, μ, h0, h1, k0, k1, rfl⟩ := inTri_grid u p ((hin p).2 hp)
      obtain ⟨k, hk, hd⟩ := near_row hr hL0 h0 h1
      obtain ⟨b0, b1⟩ := rowAt_range hr hL0 k
      obtain ⟨i, hi, hd'⟩ := near_step hr (mul_nonneg b0 (pd_nonneg u.2.2 u.1)) k0 k1
      refine ⟨_, (hmem _).2 ⟨k, i, hk, hi, rfl⟩, ?_⟩
      refine (V3.pointDistance_triangle _ (grid u (rowAt resolution L k) μ) _).trans ?_
      have c1 := grid_along u L a (rowAt resolution L k) μ hsides.1 hsides.2.1 k0 k1
      have c2 := grid_across u (rowAt resolution L k) μ (i / rowSteps resolution (rowAt resolution L k * V3.pointDistance u.2.2 u.1)) b0
      rw [← c2] at hd'
      linarith

/-- Non-vacuity. -/
example : area egyptian ≠ 0 ∧ (0 : ℝ) < 1 ∧ ¬maxLength egyptian ≤ 1 := by
  refine ⟨by rw [egyptian_area]; norm_num, one_pos, fun h => ?_⟩
  have := ((sidesLe_iff egyptian 1).2 h).1
  have h2 := pow_le_pow_left₀ (pd_nonneg _ _) this 2
  rw [pd_sq] at h2
  norm_num [egyptian] at h2

end Volmdlr.Triangles
