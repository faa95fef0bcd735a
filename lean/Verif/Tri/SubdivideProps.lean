import Verif.Tri.AreaProps
import Mathlib.Analysis.SpecificLimits.Basic

/-!
# Subdivision of a triangle by its longest sides (C100)
-/

namespace Volmdlr.Triangles

/-- The point of barycentric coordinates `α`, `β`, `γ` (specification). -/
def comb (t : Tri) (α β γ : ℝ) : V3 ℝ := V3.smul α t.1 + V3.smul β t.2.1 + V3.smul γ t.2.2

/-- A point of the triangle, border included (specification). -/
def InTri (t : Tri) (p : V3 ℝ) : Prop := ∃ α β γ : ℝ, 0 ≤ α ∧ 0 ≤ β ∧ 0 ≤ γ ∧ α + β + γ = 1 ∧ p = comb t α β γ

/-- A point inside the triangle, border excluded (specification). -/
def Inside (t : Tri) (p : V3 ℝ) : Prop := ∃ α β γ : ℝ, 0 < α ∧ 0 < β ∧ 0 < γ ∧ α + β + γ = 1 ∧ p = comb t α β γ

/-- No side is longer than `d` (specification). -/
def SidesLe (d : ℝ) (t : Tri) : Prop := V3.pointDistance t.1 t.2.1 ≤ d ∧ V3.pointDistance t.2.1 t.2.2 ≤ d ∧ V3.pointDistance t.2.2 t.1 ≤ d

/-! ## One bisection -/

/-- The same triangle, from another of its points. -/
def Cyclic (t u : Tri) : Prop := u = t ∨ u = (t.2.1, t.2.2, t.1) ∨ u = (t.2.2, t.1, t.2.1)

lemma turned_cyclic (t : Tri) : Cyclic t (turned t) := by
  unfold turned Cyclic
  by_cases h1 : (lengths t).1 = maxLength t
  · rw [if_pos h1]; exact Or.inl rfl
  · rw [if_neg h1]
    by_cases h2 : (lengths t).2.1 = maxLength t
    · rw [if_pos h2]; exact Or.inr (Or.inl rfl)
    · rw [if_neg h2]; exact Or.inr (Or.inr rfl)

lemma turned_longest (t : Tri) : V3.pointDistance (turned t).1 (turned t).2.1 = maxLength t := by
  unfold turned
  by_cases h1 : (lengths t).1 = maxLength t
  · rw [if_pos h1]; exact h1
  · rw [if_neg h1]
    by_cases h2 : (lengths t).2.1 = maxLength t
    · rw [if_pos h2]; exact h2
    · rw [if_neg h2]
      unfold maxLength at *
      rcases max_choice (max (lengths t).1 (lengths t).2.1) (lengths t).2.2 with h | h
      · rw [h] at h1 h2
        rcases max_choice (lengths t).1 (lengths t).2.1 with h' | h'
        · exact absurd h'.symm h1
        · exact absurd h'.symm h2
      · rw [h]; rfl

lemma sidesLe_iff (t : Tri) (d : ℝ) : SidesLe d t ↔ maxLength t ≤ d := by
  unfold SidesLe maxLength lengths
  rw [max_le_iff, max_le_iff, and_assoc]

lemma Cyclic.sidesLe {t u : Tri} (h : Cyclic t u) (d : ℝ) : SidesLe d u ↔ SidesLe d t := by
  unfold SidesLe
  rcases h with h | h | h <;> rw [h] <;> tauto

lemma Cyclic.area {t u : Tri} (h : Cyclic t u) : area u = area t := by
  rcases h with h | h | h
  · rw [h]
  · rw [h, area_cycle]
  · rw [h, ← area_cycle]

lemma Cyclic.inTri {t u : Tri} (h : Cyclic t u) (p : V3 ℝ) : InTri u p ↔ InTri t p := by
  unfold InTri comb
  rcases h with h | h | h
  · rw [h]
  · rw [h]
    constructor
    · rintro ⟨a, b, c, ha, hb, hc, e, e'⟩
      exact ⟨c, a, b, hc, ha, hb, by linarith, by rw [e']; ext <;> simp <;> ring⟩
    · rintro ⟨a, b, c, ha, hb, hc, e, e'⟩
      exact ⟨b, c, a, hb, hc, ha, by linarith, by rw [e']; ext <;> simp <;> ring⟩
  · rw [h]
    constructor
    · rintro ⟨a, b, c, ha, hb, hc, e, e'⟩
      exact ⟨b, c, a, hb, hc, ha, by linarith, by rw [e']; ext <;> simp <;> ring⟩
    · rintro ⟨a, b, c, ha, hb, hc, e, e'⟩
      exact ⟨c, a, b, hc, ha, hb, by linarith, by rw [e']; ext <;> simp <;> ring⟩

lemma Cyclic.inside {t u : Tri} (h : Cyclic t u) (p : V3 ℝ) : Inside u p ↔ Inside t p := by
  unfold Inside comb
  rcases h with h | h | h
  · rw [h]
  · rw [h]
    constructor
    · rintro ⟨a, b, c, ha, hb, hc, e, e'⟩
      exact ⟨c, a, b, hc, ha, hb, by linarith, by rw [e']; ext <;> simp <;> ring⟩
    · rintro ⟨a, b, c, ha, hb, hc, e, e'⟩
      exact ⟨b, c, a, hb, hc, ha, by linarith, by rw [e']; ext <;> simp <;> ring⟩
  · rw [h]
    constructor
    · rintro ⟨a, b, c, ha, hb, hc, e, e'⟩
      exact ⟨b, c, a, hb, hc, ha, by linarith, by rw [e']; ext <;> simp <;> ring⟩
    · rintro ⟨a, b, c, ha, hb, hc, e, e'⟩
      exact ⟨c, a, b, hc, ha, hb, by linarith, by rw [e']; ext <;> simp <;> ring⟩

/-- What a bisection is. -/
lemma bisect_cases (res : ℝ) (t : Tri) :
    (SidesLe res t ∧ bisect res t = [t]) ∨
    (¬SidesLe res t ∧ ∃ a b c, Cyclic t (a, b, c) ∧ V3.pointDistance a b = maxLength t ∧
      bisect res t = [(a, midpoint a b, c), (b, midpoint a b, c)]) := by
  by_cases h : maxLength t > res
  · refine Or.inr ⟨fun e => absurd ((sidesLe_iff t res).1 e) (not_le.2 h), (turned t).1, (turned t).2.1, (turned t).2.2, turned_cyclic t,
      turned_longest t, ?_⟩
    unfold bisect
    exact if_pos h
  · refine Or.inl ⟨(sidesLe_iff t res).2 (not_lt.1 h), ?_⟩
    unfold bisect
    exact if_neg h

lemma bisect_length (res : ℝ) (t : Tri) : 1 ≤ (bisect res t).length ∧ ((bisect res t).length = 1 → SidesLe res t) := by
  rcases bisect_cases res t with ⟨h, e⟩ | ⟨-, a, b, c, -, -, e⟩ <;> rw [e]
  · exact ⟨le_refl _, fun _ => h⟩
  · exact ⟨by simp, fun h => by simp at h⟩

lemma half_side (a b : V3 ℝ) : V3.pointDistance a (midpoint a b) = V3.pointDistance a b / 2 ∧ V3.pointDistance b (midpoint a b) = V3.pointDistance a b / 2 := by
  constructor
  all_goals
    refine (sq_eq_sq₀ (pd_nonneg _ _) (div_nonneg (pd_nonneg _ _) two_pos.le)).1 ?_
    rw [div_pow, pd_sq, pd_sq]
    simp only [midpoint]; ring

lemma median_sq (a b c : V3 ℝ) :
    V3.pointDistance (midpoint a b) c ^ 2 = (2 * V3.pointDistance c a ^ 2 + 2 * V3.pointDistance b c ^ 2 - V3.pointDistance a b ^ 2) / 4 := by
  rw [pd_sq, pd_sq, pd_sq, pd_sq]
  simp only [midpoint]; ring

/-- The factor of shrinking. -/
noncomputable def shrink : ℝ := Real.sqrt 3 / 2

lemma shrink_sq : shrink ^ 2 = 3 / 4 := by
  unfold shrink
  rw [div_pow, Real.sq_sqrt (by norm_num)]; norm_num

lemma shrink_pos : 0 < shrink := by unfold shrink; positivity

lemma half_le_shrink : 1 / 2 ≤ shrink := by
  have := shrink_sq
  have := shrink_pos
  nlinarith

lemma shrink_lt_one : shrink < 1 := by
  have := shrink_sq
  have := shrink_pos
  nlinarith

lemma median_le (a b c : V3 ℝ) (L : ℝ) (hab : V3.pointDistance a b = L) (hbc : V3.pointDistance b c ≤ L) (hca : V3.pointDistance c a ≤ L) :
    V3.pointDistance (midpoint a b) c ≤ shrink * L := by
  have hL : 0 ≤ L := hab ▸ pd_nonneg a b
  refine (sq_le_sq₀ (pd_nonneg _ _) (mul_nonneg shrink_pos.le hL)).1 ?_
  rw [median_sq, mul_pow, shrink_sq, hab]
  have h1 := pow_le_pow_left₀ (pd_nonneg _ _) hbc 2
  have h2 := pow_le_pow_left₀ (pd_nonneg _ _) hca 2
  linarith

/-- All sides are at most `D`, and at most one is more than `E`. -/
def OneLong (E D : ℝ) (t : Tri) : Prop :=
  SidesLe D t ∧
  ((V3.pointDistance t.1 t.2.1 ≤ E ∧ V3.pointDistance t.2.1 t.2.2 ≤ E) ∨
   (V3.pointDistance t.2.1 t.2.2 ≤ E ∧ V3.pointDistance t.2.2 t.1 ≤ E) ∨
   (V3.pointDistance t.2.2 t.1 ≤ E ∧ V3.pointDistance t.1 t.2.1 ≤ E))

lemma pd_comm (p q : V3 ℝ) : V3.pointDistance p q = V3.pointDistance q p := by
  refine (sq_eq_sq₀ (pd_nonneg _ _) (pd_nonneg _ _)).1 ?_
  rw [pd_sq, pd_sq]; ring

lemma Cyclic.oneLong {t u : Tri} (h : Cyclic t u) (E D : ℝ) : OneLong E D u ↔ OneLong E D t := by
  unfold OneLong SidesLe
  rcases h with h | h | h <;> rw [h] <;> tauto

lemma maxLength_le {t : Tri} {D : ℝ} (h : SidesLe D t) : maxLength t ≤ D := (sidesLe_iff t D).1 h

/-- First pass: at most one long side is left in every triangle. -/
lemma bisect_first {res D E : ℝ} (hres : res ≤ E) (hE : shrink * D ≤ E) (t : Tri) (h : SidesLe D t) : ∀ u ∈ bisect res t, OneLong E D u := by
  rcases bisect_cases res t with ⟨h1, e⟩ | ⟨-, a, b, c, hc, hab, e⟩ <;> rw [e]
  · intro u hu
    obtain rfl := List.mem_singleton.1 hu
    exact ⟨h, Or.inl ⟨h1.1.trans hres, h1.2.1.trans hres⟩⟩
  · have hm := (hc.sidesLe (maxLength t)).2 ((sidesLe_iff t _).2 le_rfl)
    have hmd := maxLength_le h
    have hm0 : 0 ≤ maxLength t := hab ▸ pd_nonneg a b
    have hmed := median_le a b c _ hab hm.2.1 hm.2.2
    have hs := half_side a b
    rw [hab] at hs
    have hsh := half_le_shrink
    have hsh1 := shrink_lt_one
    have hk : shrink * maxLength t ≤ E := le_trans (mul_le_mul_of_nonneg_left hmd shrink_pos.le) hE
    have hh : maxLength t / 2 ≤ E := le_trans (by nlinarith) hk
    have hkD : shrink * maxLength t ≤ D := le_trans (by nlinarith) hmd
    intro u hu
    simp only [List.mem_cons, List.not_mem_nil, or_false] at hu
    rcases hu with rfl | rfl
    · exact ⟨⟨by rw [hs.1]; linarith, by linarith, hm.2.2.trans hmd⟩, Or.inl ⟨by rw [hs.1]; exact hh, hmed.trans hk⟩⟩
    · refine ⟨⟨by rw [hs.2]; linarith, by linarith, ?_⟩, Or.inl ⟨by rw [hs.2]; exact hh, hmed.trans hk⟩⟩
      rw [pd_comm]; exact hm.2.1.trans hmd

/-- Second pass: no long side is left. -/
lemma bisect_second {res D E : ℝ} (hres : res ≤ E) (hE : shrink * D ≤ E) (t : Tri) (h : OneLong E D t) : ∀ u ∈ bisect res t, SidesLe E u := by
  rcases bisect_cases res t with ⟨h1, e⟩ | ⟨-, a, b, c, hc, hab, e⟩ <;> rw [e]
  · intro u hu
    obtain rfl := List.mem_singleton.1 hu
    exact ⟨h1.1.trans hres, h1.2.1.trans hres, h1.2.2.trans hres⟩
  · have hm := (hc.sidesLe (maxLength t)).2 ((sidesLe_iff t _).2 le_rfl)
    have hmd := maxLength_le h.1
    have hm0 : 0 ≤ maxLength t := hab ▸ pd_nonneg a b
    have hmed := median_le a b c _ hab hm.2.1 hm.2.2
    have hs := half_side a b
    rw [hab] at hs
    have hsh := half_le_shrink
    have hk : shrink * maxLength t ≤ E := le_trans (mul_le_mul_of_nonneg_left hmd shrink_pos.le) hE
    have hh : maxLength t / 2 ≤ E := le_trans (by nlinarith) hk
    have hone := (hc.oneLong E D).2 h
    have hbc : V3.pointDistance b c ≤ E ∧ V3.pointDistance c a ≤ E := by
      have h1 := hm.2.1
      have h2 := hm.2.2
      dsimp only at h1 h2
      rcases hone.2 with ⟨x, y⟩ | ⟨x, y⟩ | ⟨x, y⟩ <;> dsimp only at x y
      · exact ⟨y, by linarith⟩
      · exact ⟨x, y⟩
      · exact ⟨by linarith, x⟩
    intro u hu
    simp only [List.mem_cons, List.not_mem_nil, or_false] at hu
    rcases hu with rfl | rfl
    · exact ⟨by rw [hs.1]; exact hh, hmed.trans hk, hbc.2⟩
    · exact ⟨by rw [hs.2]; exact hh, hmed.trans hk, by rw [pd_comm]; exact hbc.1⟩

/-! ## The passes -/

/-- One turn of the loop. -/
noncomputable def pass (res : ℝ) (l : List Tri) : List Tri := l.flatMap (bisect res)

lemma pass_two {res D E : ℝ} (hres : res ≤ E) (hE : shrink * D ≤ E) (l : List Tri) (h : ∀ t ∈ l, SidesLe D t) :
    ∀ u ∈ pass res (pass res l), SidesLe E u := by
  intro u hu
  obtain ⟨v, hv, hu⟩ := List.mem_flatMap.1 hu
  obtain ⟨t, ht, hv⟩ := List.mem_flatMap.1 hv
  exact bisect_second hres hE v (bisect_first hres hE t (h t ht) v hv) u hu

lemma pass_many {res D : ℝ} (l : List Tri) (h : ∀ t ∈ l, SidesLe D t) (n : ℕ) :
    ∀ u ∈ (pass res)^[2 * n] l, SidesLe (max res (shrink ^ n * D)) u := by
  induction n with
  | zero =>
    intro u hu
    have := h u hu
    exact ⟨this.1.trans (by simp), this.2.1.trans (by simp), this.2.2.trans (by simp)⟩
  | succ n ih =>
    rw [show 2 * (n + 1) = 2 * n + 1 + 1 by ring, Function.iterate_succ_apply', Function.iterate_succ_apply']
    have hs := shrink_pos
    have hs1 := shrink_lt_one
    by_cases hr : shrink ^ n * D ≤ res
    · rw [max_eq_left hr] at ih
      intro u hu
      obtain ⟨v, hv, hu⟩ := List.mem_flatMap.1 hu
      obtain ⟨t, ht, hv⟩ := List.mem_flatMap.1 hv
      have e1 : bisect res t = [t] := by
        rcases bisect_cases res t with ⟨-, e⟩ | ⟨x, -⟩
        · exact e
        · exact absurd (ih t ht) x
      rw [e1, List.mem_singleton] at hv
      subst hv
      rw [e1, List.mem_singleton] at hu
      subst hu
      have := ih _ ht
      exact ⟨this.1.trans (le_max_left _ _), this.2.1.trans (le_max_left _ _), this.2.2.trans (le_max_left _ _)⟩
    · rw [max_eq_right (not_le.1 hr).le] at ih
      refine pass_two (le_max_left _ _) ?_ _ ih
      rw [pow_succ]
      refine le_trans (le_of_eq ?_) (le_max_right _ _)
      ring

lemma pass_length_le (res : ℝ) (l : List Tri) : l.length ≤ (pass res l).length ∧ (l.length = (pass res l).length → ∀ t ∈ l, SidesLe res t) := by
  induction l with
  | nil => simp [pass]
  | cons t l ih =>
    have hb := bisect_length res t
    have e : (pass res (t :: l)).length = (bisect res t).length + (pass res l).length := by simp [pass]
    rw [e, List.length_cons]
    refine ⟨by omega, fun h u hu => ?_⟩
    rcases List.mem_cons.1 hu with rfl | hu
    · exact hb.2 (by omega)
    · exact ih.2 (by omega) u hu

lemma loop_iterates (res : ℝ) : ∀ (fuel : ℕ) (l l' : List Tri), subdivideLoop res fuel l = some l' →
    (∃ n, l' = (pass res)^[n] l) ∧ ∀ t ∈ l', SidesLe res t := by
  intro fuel
  induction fuel with
  | zero => intro l l' h; cases h
  | succ k ih =>
    intro l l' h
    unfold subdivideLoop at h
    dsimp only at h
    by_cases hl : l.length = (l.flatMap (bisect res)).length
    · rw [if_pos hl] at h
      obtain rfl := Option.some.inj h
      exact ⟨⟨0, rfl⟩, (pass_length_le res l).2 hl⟩
    · rw [if_neg hl] at h
      obtain ⟨⟨n, e⟩, h'⟩ := ih _ _ h
      exact ⟨⟨n + 1, by rw [Function.iterate_succ_apply]; exact e⟩, h'⟩

lemma loop_stops (res : ℝ) : ∀ (n : ℕ) (l : List Tri), (∀ t ∈ (pass res)^[n] l, SidesLe res t) → ∃ l', subdivideLoop res (n + 1) l = some l' := by
  intro n
  induction n with
  | zero =>
    intro l h
    refine ⟨l, ?_⟩
    unfold subdivideLoop
    dsimp only
    refine if_pos ?_
    have : l.flatMap (bisect res) = l := by
      have : ∀ m : List Tri, (∀ t ∈ m, SidesLe res t) → m.flatMap (bisect res) = m := by
        intro m hm
        induction m with
        | nil => rfl
        | cons t m ih =>
          rw [List.flatMap_cons, ih (fun u hu => hm u (List.mem_cons_of_mem _ hu))]
          rcases bisect_cases res t with ⟨-, e⟩ | ⟨x, -⟩
          · rw [e]; rfl
          · exact absurd (hm t List.mem_cons_self) x
      exact this l h
    rw [this]
  | succ n ih =>
    intro l h
    unfold subdivideLoop
    dsimp only
    by_cases hl : l.length = (l.flatMap (bisect res)).length
    · exact ⟨l, if_pos hl⟩
    · obtain ⟨l', hl'⟩ := ih (pass res l) (by rw [← Function.iterate_succ_apply]; exact h)
      exact ⟨l', by rw [if_neg hl]; exact hl'⟩

lemma loop_more (res : ℝ) : ∀ (fuel : ℕ) (l l' : List Tri), subdivideLoop res fuel l = some l' → ∀ fuel' ≥ fuel, subdivideLoop res fuel' l = some l' := by
  intro fuel
  induction fuel with
  | zero => intro l l' h; cases h
  | succ k ih =>
    intro l l' h fuel' hf
    obtain ⟨k', rfl⟩ : ∃ k', fuel' = k' + 1 := ⟨fuel' - 1, by omega⟩
    unfold subdivideLoop at h ⊢
    dsimp only at h ⊢
    by_cases hl : l.length = (l.flatMap (bisect res)).length
    · rw [if_pos hl] at h ⊢; exact h
    · rw [if_neg hl] at h ⊢
      exact ih _ _ h k' (by omega)

/-- C100: for a positive resolution the subdivision ends, whatever the triangle, and always with the same triangles. -/
theorem C100_ends (resolution : ℝ) (h : 0 < resolution) (t : Tri) :
    ∃ fuel l, ∀ fuel' ≥ fuel, subdivide resolution fuel' t = some l := by
  obtain ⟨D, hD⟩ : ∃ D, D = max (maxLength t) 1 := ⟨_, rfl⟩
  have hD0 : 0 < D := by rw [hD]; exact lt_of_lt_of_le one_pos (le_max_right _ _)
  have hin : ∀ u ∈ [t], SidesLe D u := by
    intro u hu
    obtain rfl := List.mem_singleton.1 hu
    rw [sidesLe_iff, hD]; exact le_max_left _ _
  obtain ⟨n, hn⟩ := exists_pow_lt_of_lt_one (div_pos h hD0) shrink_lt_one
  have hk := pass_many (res := resolution) [t] hin n
  rw [max_eq_left (by rw [lt_div_iff₀ hD0] at hn; exact hn.le)] at hk
  obtain ⟨l, hl⟩ := loop_stops resolution (2 * n) [t] hk
  exact ⟨_, l, fun fuel' hf => loop_more resolution _ _ _ hl fuel' hf⟩

/-- C100: no side of the triangles returned is longer than the resolution. -/
theorem C100_sides (resolution : ℝ) (fuel : ℕ) (t : Tri) (l : List Tri) (h : subdivide resolution fuel t = some l) :
    ∀ u ∈ l, V3.pointDistance u.1 u.2.1 ≤ resolution ∧ V3.pointDistance u.2.1 u.2.2 ≤ resolution ∧ V3.pointDistance u.2.2 u.1 ≤ resolution :=
  (loop_iterates resolution fuel [t] l h).2

/-! ## What the passes keep -/

lemma split_inTri (a b c p : V3 ℝ) : InTri (a, b, c) p ↔ InTri (a, midpoint a b, c) p ∨ InTri (b, midpoint a b, c) p := by
  unfold InTri comb midpoint
  constructor
  · rintro ⟨α, β, γ, h1, h2, h3, hs, rfl⟩
    rcases le_total β α with h | h
    · exact Or.inl ⟨α - β, 2 * β, γ, by linarith, by linarith, h3, by linarith, by ext <;> simp <;> ring⟩
    · exact Or.inr ⟨β - α, 2 * α, γ, by linarith, by linarith, h3, by linarith, by ext <;> simp <;> ring⟩
  · rintro (⟨α, β, γ, h1, h2, h3, hs, rfl⟩ | ⟨α, β, γ, h1, h2, h3, hs, rfl⟩)
    · exact ⟨α + β / 2, β / 2, γ, by linarith, by linarith, h3, by linarith, by ext <;> simp <;> ring⟩
    · exact ⟨β / 2, α + β / 2, γ, by linarith, by linarith, h3, by linarith, by ext <;> simp <;> ring⟩

lemma split_area (a b c : V3 ℝ) : area (a, midpoint a b, c) = area (a, b, c) / 2 ∧ area (b, midpoint a b, c) = area (a, b, c) / 2 := by
  have hn : ∀ u : V3 ℝ, V3.norm (V3.smul (1 / 2) u) = V3.norm u / 2 := by
    intro u
    refine (sq_eq_sq₀ (V3.norm_nonneg _) (div_nonneg (V3.norm_nonneg _) two_pos.le)).1 ?_
    rw [div_pow, V3.norm_pow_two, V3.norm_pow_two]
    simp only [V3.dot, V3.smul_x, V3.smul_y, V3.smul_z]; ring
  rw [C99_area, C99_area, C99_area]
  dsimp only
  have e1 : V3.cross (midpoint a b - a) (c - a) = V3.smul (1 / 2) (V3.cross (b - a) (c - a)) := by ext <;> simp [V3.cross, midpoint] <;> ring
  have e2 : V3.cross (midpoint a b - b) (c - b) = -V3.smul (1 / 2) (V3.cross (b - a) (c - a)) := by ext <;> simp [V3.cross, midpoint] <;> ring
  rw [e1, e2, norm_neg3, hn]
  exact ⟨rfl, rfl⟩

/-- Barycentric coordinates are unique in a triangle which is not flat. -/
lemma comb_unique (t : Tri) (ht : area t ≠ 0) {α β γ α' β' γ' : ℝ} (hs : α + β + γ = 1) (hs' : α' + β' + γ' = 1)
    (e : comb t α β γ = comb t α' β' γ') : α = α' ∧ β = β' ∧ γ = γ' := by
  have hne : V3.cross (t.2.1 - t.1) (t.2.2 - t.1) ≠ ⟨0, 0, 0⟩ := by
    intro h
    refine ht ?_
    rw [C99_area, h]
    simp [V3.norm]
  have x := congrArg V3.x e
  have y := congrArg V3.y e
  have z := congrArg V3.z e
  obtain ⟨⟨x1, y1, z1⟩, ⟨x2, y2, z2⟩, ⟨x3, y3, z3⟩⟩ := t
  simp only [comb, V3.add_x, V3.add_y, V3.add_z, V3.smul_x, V3.smul_y, V3.smul_z] at x y z
  obtain ⟨m, hm⟩ : ∃ m, m = β - β' := ⟨_, rfl⟩
  obtain ⟨n, hn⟩ : ∃ n, n = γ - γ' := ⟨_, rfl⟩
  have hx : m * (x2 - x1) + n * (x3 - x1) = 0 := by rw [hm, hn]; linear_combination x - x1 * hs + x1 * hs'
  have hy : m * (y2 - y1) + n * (y3 - y1) = 0 := by rw [hm, hn]; linear_combination y - y1 * hs + y1 * hs'
  have hz : m * (z2 - z1) + n * (z3 - z1) = 0 := by rw [hm, hn]; linear_combination z - z1 * hs + z1 * hs'
  have key : m = 0 ∧ n = 0 := by
    by_contra hmn
    refine hne ?_
    have c1 : ∀ k, m * k = 0 ∧ n * k = 0 → k = 0 := by
      intro k ⟨h1, h2⟩
      by_contra hk
      exact hmn ⟨(mul_eq_zero.1 h1).resolve_right hk, (mul_eq_zero.1 h2).resolve_right hk⟩
    ext <;> simp only [V3.cross, V3.sub_x, V3.sub_y, V3.sub_z] <;> apply c1 <;> constructor
    · linear_combination (z3 - z1) * hy - (y3 - y1) * hz
    · linear_combination (y2 - y1) * hz - (z2 - z1) * hy
    · linear_combination (x3 - x1) * hz - (z3 - z1) * hx
    · linear_combination (z2 - z1) * hx - (x2 - x1) * hz
    · linear_combination (y3 - y1) * hx - (x3 - x1) * hy
    · linear_combination (x2 - x1) * hy - (y2 - y1) * hx
  exact ⟨by linarith [key.1, key.2], by linarith [key.1], by linarith [key.2]⟩

lemma split_inside (a b c p : V3 ℝ) : (Inside (a, midpoint a b, c) p → Inside (a, b, c) p) ∧ (Inside (b, midpoint a b, c) p → Inside (a, b, c) p) := by
  unfold Inside comb midpoint
  constructor
  · rintro ⟨α, β, γ, h1, h2, h3, hs, rfl⟩
    exact ⟨α + β / 2, β / 2, γ, by linarith, by linarith, h3, by linarith, by ext <;> simp <;> ring⟩
  · rintro ⟨α, β, γ, h1, h2, h3, hs, rfl⟩
    exact ⟨β / 2, α + β / 2, γ, by linarith, by linarith, h3, by linarith, by ext <;> simp <;> ring⟩

lemma split_disjoint (a b c p : V3 ℝ) (h : area (a, b, c) ≠ 0) : ¬(Inside (a, midpoint a b, c) p ∧ Inside (b, midpoint a b, c) p) := by
  rintro ⟨⟨α, β, γ, h1, h2, h3, hs, rfl⟩, ⟨α', β', γ', h1', h2', h3', hs', e⟩⟩
  have e1 : comb (a, midpoint a b, c) α β γ = comb (a, b, c) (α + β / 2) (β / 2) γ := by
    unfold comb midpoint; ext <;> simp <;> ring
  have e2 : comb (b, midpoint a b, c) α' β' γ' = comb (a, b, c) (β' / 2) (α' + β' / 2) γ' := by
    unfold comb midpoint; ext <;> simp <;> ring
  rw [e1, e2] at e
  obtain ⟨k1, k2, -⟩ := comb_unique _ h (by linarith) (by linarith) e
  linarith

lemma bisect_inTri (res : ℝ) (t : Tri) (p : V3 ℝ) : InTri t p ↔ ∃ u ∈ bisect res t, InTri u p := by
  rcases bisect_cases res t with ⟨h, e⟩ | ⟨-, a, b, c, hc, -, e⟩ <;> rw [e]
  · simp
  · rw [← hc.inTri, split_inTri]; simp

lemma bisect_area (res : ℝ) (t : Tri) : ((bisect res t).map area).sum = area t := by
  rcases bisect_cases res t with ⟨h, e⟩ | ⟨-, a, b, c, hc, -, e⟩ <;> rw [e]
  · simp
  · simp [split_area, hc.area]

lemma bisect_area_ne (res : ℝ) (t : Tri) (h : area t ≠ 0) : ∀ u ∈ bisect res t, area u ≠ 0 := by
  rcases bisect_cases res t with ⟨-, e⟩ | ⟨-, a, b, c, hc, -, e⟩ <;> rw [e]
  · simpa using h
  · simp [split_area, hc.area, h]

lemma bisect_inside (res : ℝ) (t : Tri) (p : V3 ℝ) : ∀ u ∈ bisect res t, Inside u p → Inside t p := by
  rcases bisect_cases res t with ⟨-, e⟩ | ⟨-, a, b, c, hc, -, e⟩ <;> rw [e]
  · simp
  · intro u hu h
    rw [← hc.inside]
    simp only [List.mem_cons, List.not_mem_nil, or_false] at hu
    rcases hu with rfl | rfl
    · exact (split_inside a b c p).1 h
    · exact (split_inside a b c p).2 h

/-- The triangles do not overlap: no point is inside two of them (specification). -/
def NoOverlap (l : List Tri) : Prop := l.Pairwise fun u v => ∀ p, ¬(Inside u p ∧ Inside v p)

lemma bisect_disjoint (res : ℝ) (t : Tri) (h : area t ≠ 0) : NoOverlap (bisect res t) := by
  unfold NoOverlap
  rcases bisect_cases res t with ⟨-, e⟩ | ⟨-, a, b, c, hc, -, e⟩ <;> rw [e]
  · simp
  · simp only [List.pairwise_cons, List.mem_singleton, forall_eq, List.not_mem_nil, IsEmpty.forall_iff, implies_true, List.Pairwise.nil, and_true]
    intro p
    exact split_disjoint a b c p (by rw [hc.area]; exact h)

/-- What every pass keeps. -/
lemma passes_keep (res : ℝ) (l : List Tri) (n : ℕ) :
    (∀ p, (∃ u ∈ l, InTri u p) ↔ ∃ u ∈ (pass res)^[n] l, InTri u p) ∧
    (((pass res)^[n] l).map area).sum = (l.map area).sum ∧
    ((∀ u ∈ l, area u ≠ 0) → NoOverlap l → (∀ u ∈ (pass res)^[n] l, area u ≠ 0) ∧ NoOverlap ((pass res)^[n] l)) := by
  induction n with
  | zero => exact ⟨fun p => Iff.rfl, rfl, fun h h' => ⟨h, h'⟩⟩
  | succ n ih =>
    rw [Function.iterate_succ_apply']
    generalize (pass res)^[n] l = m at ih
    refine ⟨fun p => (ih.1 p).trans ?_, Eq.trans ?_ ih.2.1, fun h h' => ?_⟩
    · unfold pass
      constructor
      · rintro ⟨u, hu, hp⟩
        obtain ⟨v, hv, hp⟩ := (bisect_inTri res u p).1 hp
        exact ⟨v, List.mem_flatMap.2 ⟨u, hu, hv⟩, hp⟩
      · rintro ⟨v, hv, hp⟩
        obtain ⟨u, hu, hv⟩ := List.mem_flatMap.1 hv
        exact ⟨u, hu, (bisect_inTri res u p).2 ⟨v, hv, hp⟩⟩
    · unfold pass
      clear ih
      induction m with
      | nil => rfl
      | cons t m ih => rw [List.flatMap_cons, List.map_append, List.sum_append, ih, bisect_area]; simp
    · obtain ⟨k1, k2⟩ := ih.2.2 h h'
      refine ⟨?_, ?_⟩
      · intro v hv
        obtain ⟨u, hu, hv⟩ := List.mem_flatMap.1 hv
        exact bisect_area_ne res u (k1 u hu) v hv
      · unfold NoOverlap pass
        rw [List.pairwise_flatMap]
        refine ⟨fun u hu => bisect_disjoint res u (k1 u hu), ?_⟩
        refine List.Pairwise.imp ?_ k2
        intro u v huv x hx y hy p hp
        exact huv p ⟨bisect_inside res u p x hx hp.1, bisect_inside res v p y hy hp.2⟩

/-- C100: the triangles returned cover the triangle exactly: a point is in the triangle when, and only when, it is in one of them; the sum of their areas
is the area of the triangle. -/
theorem C100_cover (resolution : ℝ) (fuel : ℕ) (t : Tri) (l : List Tri) (h : subdivide resolution fuel t = some l) :
    (∀ p, InTri t p ↔ ∃ u ∈ l, InTri u p) ∧ (l.map area).sum = area t := by
  obtain ⟨⟨n, rfl⟩, -⟩ := loop_iterates resolution fuel [t] l h
  obtain ⟨k1, k2, -⟩ := passes_keep resolution [t] n
  refine ⟨fun p => ?_, by rw [k2]; simp⟩
  rw [← k1 p]; simp

/-- C100: the triangles returned do not overlap, and none of them is flat, when the triangle is not flat. -/
theorem C100_no_overlap (resolution : ℝ) (fuel : ℕ) (t : Tri) (l : List Tri) (h : subdivide resolution fuel t = some l) (ht : area t ≠ 0) :
    NoOverlap l ∧ ∀ u ∈ l, area u ≠ 0 := by
  obtain ⟨⟨n, rfl⟩, -⟩ := loop_iterates resolution fuel [t] l h
  obtain ⟨k1, k2⟩ := (passes_keep resolution [t] n).2.2 (by simpa using ht) (List.pairwise_singleton _ _)
  exact ⟨k2, k1⟩

/-- Non-vacuity: the triangle of sides three, four and five, with a resolution of one: the subdivision ends, and the triangle is not among the
triangles returned. -/
example : ∃ fuel l, subdivide 1 fuel egyptian = some l ∧ area egyptian ≠ 0 ∧ egyptian ∉ l := by
  obtain ⟨fuel, l, h⟩ := C100_ends 1 one_pos egyptian
  refine ⟨fuel, l, h fuel le_rfl, by rw [egyptian_area]; norm_num, fun hm => ?_⟩
  have := (C100_sides 1 fuel egyptian l (h fuel le_rfl) egyptian hm).1
  have h2 := pow_le_pow_left₀ (pd_nonneg _ _) this 2
  rw [pd_sq] at h2
  norm_num [egyptian] at h2

end Volmdlr.Triangles
