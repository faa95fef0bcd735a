import Verif.Grid.Model
import Mathlib.Tactic.Linarith
import Mathlib.Tactic.FieldSimp
import Mathlib.Tactic.Ring
import Mathlib.Tactic.Positivity
import Mathlib.Tactic.NormNum
import Mathlib.Algebra.Order.Ring.Rat
import Mathlib.Data.List.Permutation

/-!
# Property C60: grids of points
-/

namespace Volmdlr.Grid

variable {K : Type*} [Field K] [LinearOrder K] [IsStrictOrderedRing K]

lemma points_eq {P : Type*} (g : Grid P) : g.points = g.rows.flatten := by
  unfold Grid.points
  have : ∀ (l : List (List P)) (a : List P), l.foldl (fun l r => l ++ r) a = a ++ l.flatten := by
    intro l
    induction l with
    | nil => simp
    | cons r l ih => intro a; rw [List.foldl_cons, ih, List.flatten_cons, List.append_assoc]
  rw [this, List.nil_append]

lemma slices_spec {P : Type*} (n : ℕ) (hn : 0 < n) : ∀ (fuel : ℕ) (points : List P), points.length ≤ fuel →
    (slices n fuel points).flatten = points ∧
    (∀ i r, (slices n fuel points)[i]? = some r → r ≠ [] ∧ r.length ≤ n ∧ (i + 1 < (slices n fuel points).length → r.length = n)) := by
  intro fuel
  induction fuel with
  | zero => intro points h; simp at h; subst h; simp [slices]
  | succ fuel ih =>
    intro points h
    unfold slices
    by_cases hp : points = []
    · rw [if_pos hp]; subst hp; simp
    · rw [if_neg hp]
      have hlen : 0 < points.length := List.length_pos_iff.2 hp
      obtain ⟨i1, i2⟩ := ih (points.drop n) (by rw [List.length_drop]; omega)
      refine ⟨by rw [List.flatten_cons, i1, List.take_append_drop], ?_⟩
      intro i r hr
      rcases i with _ | i
      · simp only [List.getElem?_cons_zero, Option.some.injEq] at hr
        subst hr
        refine ⟨by rw [← List.length_pos_iff, List.length_take]; omega, by rw [List.length_take]; omega, ?_⟩
        intro hl
        rw [List.length_cons] at hl
        have : slices n fuel (points.drop n) ≠ [] := by intro e; rw [e] at hl; simp at hl
        have : points.drop n ≠ [] := by
          intro e
          rw [e] at this
          apply this
          cases fuel <;> simp [slices]
        rw [List.length_take]
        rw [Ne, List.drop_eq_nil_iff, not_le] at this
        omega
      · simp only [List.getElem?_cons_succ] at hr
        obtain ⟨j1, j2, j3⟩ := i2 i r hr
        refine ⟨j1, j2, fun h => j3 ?_⟩
        rw [List.length_cons] at h
        omega

/-- **C60.** `from_points` loses no point and keeps their order: the points of the grid are the list given; all rows have the given length,
except the last, which is not empty and not longer. A zero length raises an error. -/
theorem C60_from_points {P : Type*} (points : List P) (n : ℕ) (d : String × String) :
    (fromPoints points n d = none ↔ n = 0) ∧
    ∀ g ∈ fromPoints points n d, g.points = points ∧ g.direction = d ∧
      ∀ i r, g.rows[i]? = some r → r ≠ [] ∧ r.length ≤ n ∧ (i + 1 < g.rows.length → r.length = n) := by
  unfold fromPoints
  by_cases hn : n = 0
  · simp [hn]
  · rw [if_neg hn]
    refine ⟨by simp [hn], ?_⟩
    rintro g hg
    obtain rfl := Option.some.inj hg
    obtain ⟨h1, h2⟩ := slices_spec n (Nat.pos_of_ne_zero hn) points.length points le_rfl
    exact ⟨by rw [points_eq]; exact h1, rfl, h2⟩

/-- Not vacuous. -/
example : (fromPoints [1, 2, 3, 4, 5] 2 ("+x", "+y")).map Grid.rows = some [[1, 2], [3, 4], [5]] := by decide +kernel

/-! ### `from_properties` -/

lemma length_npLinspace (a b : K) (n : ℕ) : (npLinspace a b n).length = n := by simp [npLinspace]

lemma npLinspace_getElem? (a b : K) (n i : ℕ) (h : i < n) (hn : 1 < n) :
    (npLinspace a b n)[i]? = some (a + i * ((b - a) / ((n - 1 : ℕ) : K))) := by
  unfold npLinspace
  rw [List.getElem?_map, List.getElem?_range h]
  simp only [Option.map_some]
  by_cases hi : i + 1 = n
  · rw [if_pos ⟨hi, hn⟩]
    have : ((n - 1 : ℕ) : K) = i := by rw [← hi]; simp
    have hne : (i : K) ≠ 0 := by
      have : i ≠ 0 := by omega
      exact_mod_cast this
    rw [this, mul_div_cancel₀ _ hne]
    congr 1; ring
  · rw [if_neg (by tauto)]

/-- The values are those with the limits exchanged, in the reverse order. -/
lemma npLinspace_reverse (a b : K) (n : ℕ) (hn : 1 < n) : npLinspace b a n = (npLinspace a b n).reverse := by
  apply List.ext_getElem?
  intro i
  by_cases h : i < n
  · rw [npLinspace_getElem? _ _ _ _ h hn, List.getElem?_reverse (by rwa [length_npLinspace]), length_npLinspace,
      npLinspace_getElem? _ _ _ _ (by omega) hn]
    congr 1
    have e : ((n - 1 - i : ℕ) : K) = ((n - 1 : ℕ) : K) - i := by rw [Nat.cast_sub (by omega)]
    have hne : ((n - 1 : ℕ) : K) ≠ 0 := by
      have : n - 1 ≠ 0 := by omega
      exact_mod_cast this
    rw [e]
    field_simp
    ring
  · rw [List.getElem?_eq_none (by rw [length_npLinspace]; omega), List.getElem?_eq_none (by rw [List.length_reverse, length_npLinspace]; omega)]

/-- Specification: the values `a + i (b - a) / (n - 1)`, `i < n`. -/
def Subdivision (a b : K) (n : ℕ) (x : K) : Prop := ∃ i < n, x * ((n : K) - 1) = a * ((n : K) - 1) + i * (b - a)

lemma mem_npLinspace (a b : K) (n : ℕ) (hn : 1 < n) (x : K) : x ∈ npLinspace a b n ↔ Subdivision a b n x := by
  have hne : ((n - 1 : ℕ) : K) ≠ 0 := by
    have : n - 1 ≠ 0 := by omega
    exact_mod_cast this
  have e : ((n - 1 : ℕ) : K) = (n : K) - 1 := by rw [Nat.cast_sub (by omega)]; simp
  rw [List.mem_iff_getElem?]
  constructor
  · rintro ⟨i, hi⟩
    have h : i < n := by
      by_contra hc
      rw [List.getElem?_eq_none (by rw [length_npLinspace]; omega)] at hi
      cases hi
    rw [npLinspace_getElem? _ _ _ _ h hn] at hi
    refine ⟨i, h, ?_⟩
    rw [← Option.some.inj hi, ← e]
    field_simp
  · rintro ⟨i, h, hx⟩
    refine ⟨i, ?_⟩
    rw [npLinspace_getElem? _ _ _ _ h hn]
    congr 1
    rw [← e] at hx
    field_simp
    linear_combination -hx

/-- The two families of directions. -/
def directions : List (String × String) :=
  [("+x", "+y"), ("-x", "+y"), ("+y", "+x"), ("-y", "+x"), ("+x", "-y"), ("-x", "-y"), ("+y", "-x"), ("-y", "-x")]

/-- Specification: first value of the `x` axis is the minimum when the direction has `+x`, else the maximum, and so on. -/
def ends (lo hi : K) (plus : String) (d : String × String) : K × K := if d.1 = plus ∨ d.2 = plus then (lo, hi) else (hi, lo)

/-- All directions in one form. -/
lemma fromProperties_eq (xlim ylim : K × K) (nx ny : ℕ) (d : String × String) (hd : d ∈ directions) :
    fromProperties xlim ylim nx ny d =
      let x := npLinspace (ends xlim.1 xlim.2 "+x" d).1 (ends xlim.1 xlim.2 "+x" d).2 nx
      let y := npLinspace (ends ylim.1 ylim.2 "+y" d).1 (ends ylim.1 ylim.2 "+y" d).2 ny
      some (if d.1 = "+x" ∨ d.1 = "-x" then ⟨y.map fun yi => x.map fun xi => ⟨xi, yi⟩, d⟩ else ⟨x.map fun xi => y.map fun yi => ⟨xi, yi⟩, d⟩) := by
  unfold directions at hd
  simp only [List.mem_cons, List.not_mem_nil, or_false] at hd
  rcases hd with rfl | rfl | rfl | rfl | rfl | rfl | rfl | rfl <;> simp [fromProperties, directionTable, ends]

/-- A direction that is not in the table is refused. -/
theorem C60_direction_refused (xlim ylim : K × K) (nx ny : ℕ) (d : String × String) :
    fromProperties xlim ylim nx ny d = none ↔ d ∉ directions := by
  constructor
  · intro h hd
    rw [fromProperties_eq _ _ _ _ _ hd] at h
    cases h
  · intro hd
    unfold fromProperties
    have : directionTable xlim.1 xlim.2 ylim.1 ylim.2 d = none := by
      unfold directions at hd
      simp only [List.mem_cons, List.not_mem_nil, or_false, not_or] at hd
      obtain ⟨a, b, c, e, f, g, h, i⟩ := hd
      unfold directionTable
      rw [if_neg a, if_neg b, if_neg c, if_neg e, if_neg f, if_neg g, if_neg h, if_neg i]
    rw [this]

lemma ends_cases (lo hi : K) (plus : String) (d : String × String) :
    ends lo hi plus d = (lo, hi) ∨ ends lo hi plus d = (hi, lo) := by
  unfold ends; split_ifs <;> simp

lemma subdivision_swap (a b : K) (n : ℕ) (x : K) : Subdivision b a n x → Subdivision a b n x := by
  rintro ⟨i, hi, h⟩
  refine ⟨n - 1 - i, by omega, ?_⟩
  have e : ((n - 1 - i : ℕ) : K) = (n : K) - 1 - i := by rw [Nat.cast_sub (by omega), Nat.cast_sub (by omega)]; simp
  rw [e]
  linear_combination h

lemma mem_ends (lo hi : K) (plus : String) (d : String × String) (n : ℕ) (hn : 1 < n) (x : K) :
    x ∈ npLinspace (ends lo hi plus d).1 (ends lo hi plus d).2 n ↔ Subdivision lo hi n x := by
  rw [mem_npLinspace _ _ _ hn]
  rcases ends_cases lo hi plus d with h | h <;> rw [h]
  exact ⟨subdivision_swap _ _ _ _, subdivision_swap _ _ _ _⟩

/-- **C60.** For each of the eight directions, the points of `from_properties` are exactly the products of the two subdivisions, `nx * ny`
of them; `points_xy` gives back the two numbers. -/
theorem C60_from_properties (xlim ylim : K × K) (nx ny : ℕ) (hx : 1 < nx) (hy : 1 < ny) (d : String × String) (hd : d ∈ directions) :
    ∃ g, fromProperties xlim ylim nx ny d = some g ∧ g.direction = d ∧ g.points.length = nx * ny ∧ g.pointsXY = some (nx, ny) ∧
      ∀ p : V2 K, p ∈ g.points ↔ Subdivision xlim.1 xlim.2 nx p.x ∧ Subdivision ylim.1 ylim.2 ny p.y := by
  rw [fromProperties_eq _ _ _ _ _ hd]
  dsimp only
  set x := npLinspace (ends xlim.1 xlim.2 "+x" d).1 (ends xlim.1 xlim.2 "+x" d).2 nx with hxd
  set y := npLinspace (ends ylim.1 ylim.2 "+y" d).1 (ends ylim.1 ylim.2 "+y" d).2 ny with hyd
  have lx : x.length = nx := length_npLinspace _ _ _
  have ly : y.length = ny := length_npLinspace _ _ _
  have mx : ∀ a, a ∈ x ↔ Subdivision xlim.1 xlim.2 nx a := fun a => mem_ends _ _ _ _ _ hx a
  have my : ∀ a, a ∈ y ↔ Subdivision ylim.1 ylim.2 ny a := fun a => mem_ends _ _ _ _ _ hy a
  clear_value x y
  have x0 : ∃ a l, x = a :: l := by cases x; · simp at lx; omega
                                    · exact ⟨_, _, rfl⟩
  have y0 : ∃ a l, y = a :: l := by cases y; · simp at ly; omega
                                    · exact ⟨_, _, rfl⟩
  have prod : ∀ (u v : List K) (f : K → K → V2 K), (u.map fun a => v.map fun b => f a b).flatten.length = u.length * v.length := by
    intro u v f
    rw [List.length_flatten, List.map_map]
    have : (List.length ∘ fun a => v.map fun b => f a b) = fun _ => v.length := by funext a; simp
    rw [this]
    simp
  refine ⟨_, rfl, ?_, ?_, ?_, ?_⟩
  · split_ifs <;> rfl
  · rw [points_eq]
    split_ifs
    · rw [prod, lx, ly, Nat.mul_comm]
    · rw [prod, lx, ly]
  · obtain ⟨a, l, rfl⟩ := x0
    obtain ⟨b, m, rfl⟩ := y0
    unfold directions at hd
    simp only [List.mem_cons, List.not_mem_nil, or_false] at hd
    rcases hd with rfl | rfl | rfl | rfl | rfl | rfl | rfl | rfl <;>
      simp [Grid.pointsXY, Grid.findDirectionIndex, ← lx, ← ly]
  · intro p
    rw [points_eq, ← mx, ← my]
    split_ifs
    · simp only [List.mem_flatten, List.mem_map]
      constructor
      · rintro ⟨_, ⟨b, hb, rfl⟩, h⟩
        obtain ⟨a, ha, rfl⟩ := List.mem_map.1 h
        exact ⟨ha, hb⟩
      · rintro ⟨h1, h2⟩
        exact ⟨_, ⟨p.y, h2, rfl⟩, List.mem_map.2 ⟨p.x, h1, rfl⟩⟩
    · simp only [List.mem_flatten, List.mem_map]
      constructor
      · rintro ⟨_, ⟨a, ha, rfl⟩, h⟩
        obtain ⟨b, hb, rfl⟩ := List.mem_map.1 h
        exact ⟨ha, hb⟩
      · rintro ⟨h1, h2⟩
        exact ⟨_, ⟨p.x, h1, rfl⟩, List.mem_map.2 ⟨p.y, h2, rfl⟩⟩

lemma npLinspace_head (a b : K) (n : ℕ) (hn : 1 < n) : (npLinspace a b n).head? = some a := by
  rw [List.head?_eq_getElem?, npLinspace_getElem? _ _ _ _ (by omega) hn]; simp

lemma npLinspace_last (a b : K) (n : ℕ) (hn : 1 < n) : (npLinspace a b n).getLast? = some b := by
  rw [List.getLast?_eq_getElem?, length_npLinspace, npLinspace_getElem? _ _ _ _ (by omega) hn]
  congr 1
  have hne : ((n - 1 : ℕ) : K) ≠ 0 := by
    have : n - 1 ≠ 0 := by omega
    exact_mod_cast this
  field_simp
  ring

/-- **C60.** `limits_xy` of a grid built from limits gives them back, and all of the points are within them, whatever the direction. -/
theorem C60_limits (xlim ylim : K × K) (hxl : xlim.1 ≤ xlim.2) (hyl : ylim.1 ≤ ylim.2) (nx ny : ℕ) (hx : 1 < nx) (hy : 1 < ny)
    (d : String × String) (hd : d ∈ directions) :
    ∃ g, fromProperties xlim ylim nx ny d = some g ∧ g.limitsXY = some (xlim, ylim) ∧
      ∀ p ∈ g.points, xlim.1 ≤ p.x ∧ p.x ≤ xlim.2 ∧ ylim.1 ≤ p.y ∧ p.y ≤ ylim.2 := by
  obtain ⟨g, hg, -, -, -, hp⟩ := C60_from_properties xlim ylim nx ny hx hy d hd
  have bounds : ∀ (l : K × K) (n : ℕ) (v : K), l.1 ≤ l.2 → 1 < n → Subdivision l.1 l.2 n v → l.1 ≤ v ∧ v ≤ l.2 := by
    rintro l n v hl hn ⟨i, hi, h⟩
    have h1 : (0 : K) < (n : K) - 1 := by
      have : (1 : K) < n := by exact_mod_cast hn
      linarith
    have h2 : (i : K) ≤ (n : K) - 1 := by
      have : ((i + 1 : ℕ) : K) ≤ n := by exact_mod_cast hi
      push_cast at this; linarith
    have h3 : (0 : K) ≤ i := Nat.cast_nonneg i
    constructor
    · have : 0 ≤ (v - l.1) * ((n : K) - 1) := by
        have := mul_nonneg h3 (sub_nonneg.2 hl); linarith
      by_contra hc
      have := mul_neg_of_neg_of_pos (show v - l.1 < 0 by linarith) h1
      linarith
    · have : 0 ≤ (l.2 - v) * ((n : K) - 1) := by
        have := mul_nonneg (sub_nonneg.2 h2) (sub_nonneg.2 hl); linarith
      by_contra hc
      have := mul_neg_of_neg_of_pos (show l.2 - v < 0 by linarith) h1
      linarith
  refine ⟨g, hg, ?_, fun p h => ?_⟩
  · rw [fromProperties_eq _ _ _ _ _ hd] at hg
    dsimp only at hg
    set e := ends xlim.1 xlim.2 "+x" d with he
    set f := ends ylim.1 ylim.2 "+y" d with hf
    have hx1 := npLinspace_head e.1 e.2 nx hx
    have hx2 := npLinspace_last e.1 e.2 nx hx
    have hy1 := npLinspace_head f.1 f.2 ny hy
    have hy2 := npLinspace_last f.1 f.2 ny hy
    have fin : g.limitsXY = some ((min e.1 e.2, max e.1 e.2), (min f.1 f.2, max f.1 f.2)) := by
      obtain rfl := Option.some.inj hg
      unfold Grid.limitsXY
      split_ifs
      · simp [List.head?_map, List.getLast?_map, hx1, hx2, hy1, hy2]
      · simp [List.head?_map, List.getLast?_map, hx1, hx2, hy1, hy2]
    rw [fin]
    have hx : (min e.1 e.2, max e.1 e.2) = xlim := by
      rcases ends_cases xlim.1 xlim.2 "+x" d with h | h <;> rw [he, h] <;> simp [hxl]
    have hy : (min f.1 f.2, max f.1 f.2) = ylim := by
      rcases ends_cases ylim.1 ylim.2 "+y" d with h | h <;> rw [hf, h] <;> simp [hyl]
    rw [hx, hy]
  · obtain ⟨h1, h2⟩ := (hp p).1 h
    exact ⟨(bounds xlim nx _ hxl hx h1).1, (bounds xlim nx _ hxl hx h1).2, (bounds ylim ny _ hyl hy h2).1, (bounds ylim ny _ hyl hy h2).2⟩

/-- **C60.** The displacement of a grid compared to a grid with as many points is the list of the differences; with fewer points it is an
error. -/
theorem C60_displacement (a b : Grid (V2 K)) :
    (displacement a b = none ↔ a.points.length < b.points.length) ∧
    ∀ l ∈ displacement a b, l.length = b.points.length ∧
      ∀ (i : ℕ) (p q : V2 K), a.points[i]? = some p → b.points[i]? = some q → l[i]? = some ⟨p.x - q.x, p.y - q.y⟩ := by
  unfold displacement
  generalize a.points = u
  generalize b.points = v
  obtain ⟨F, hF'⟩ : ∃ F : V2 K × ℕ → Option (V2 K), F = fun pi => (u[pi.2]?).map fun q => (⟨q.x - pi.1.x, q.y - pi.1.y⟩ : V2 K) := ⟨_, rfl⟩
  have hF : ∀ pi, F pi = (u[pi.2]?).map fun q => (⟨q.x - pi.1.x, q.y - pi.1.y⟩ : V2 K) := fun pi => by rw [hF']
  rw [← hF']
  clear hF'
  have key : ∀ (v : List (V2 K)) (k : ℕ),
      ((v.zipIdx k).mapM F = none ↔ u.length < k + v.length ∧ v ≠ []) ∧
      ∀ l, (v.zipIdx k).mapM F = some l →
        l.length = v.length ∧ ∀ (i : ℕ) (p q : V2 K), u[k + i]? = some p → v[i]? = some q → l[i]? = some ⟨p.x - q.x, p.y - q.y⟩ := by
    intro v
    induction v with
    | nil => intro k; simp
    | cons a v ih =>
      intro k
      obtain ⟨i1, i2⟩ := ih (k + 1)
      rw [List.zipIdx_cons, List.mapM_cons]
      have hFa : F (a, k) = (u[k]?).map fun q => ⟨q.x - a.x, q.y - a.y⟩ := hF (a, k)
      rw [hFa]
      rcases hu : u[k]? with _ | p0
      · rw [List.getElem?_eq_none_iff] at hu
        refine ⟨?_, ?_⟩
        · simp; omega
        · simp
      · have hk : k < u.length := by
          by_contra hc; rw [List.getElem?_eq_none (not_lt.1 hc)] at hu; cases hu
        rcases hm : (v.zipIdx (k + 1)).mapM F with _ | l'
        · refine ⟨?_, by simp⟩
          have := i1.1 hm
          simp; omega
        · refine ⟨?_, ?_⟩
          · have : ¬(u.length < k + 1 + v.length ∧ v ≠ []) := fun h => by rw [i1.2 h] at hm; cases hm
            simp only [Option.map_some, Option.bind_eq_bind, Option.bind_some, Option.pure_def, reduceCtorEq, List.length_cons, ne_eq,
              not_false_eq_true, and_true, false_iff, not_lt]
            by_cases hv : v = []
            · subst hv; simp; omega
            · by_contra hc
              exact this ⟨by omega, hv⟩
          · intro l hl
            simp only [Option.map_some, Option.bind_eq_bind, Option.bind_some, Option.pure_def, Option.some.injEq] at hl
            subst hl
            obtain ⟨j1, j2⟩ := i2 l' hm
            refine ⟨by simp [j1], ?_⟩
            intro i p q hp hq
            rcases i with _ | i
            · simp only [Nat.add_zero] at hp
              rw [hu] at hp
              simp only [List.getElem?_cons_zero, Option.some.injEq] at hq hp ⊢
              subst hq; subst hp; rfl
            · simp only [List.getElem?_cons_succ] at hq ⊢
              exact j2 i p q (by rw [show k + 1 + i = k + (i + 1) by omega]; exact hp) hq
  obtain ⟨h1, h2⟩ := key v 0
  refine ⟨?_, ?_⟩
  · rw [h1]
    constructor
    · rintro ⟨h, -⟩; omega
    · intro h; refine ⟨by omega, ?_⟩; rintro rfl; simp at h
  · intro l hl
    obtain ⟨j1, j2⟩ := h2 l hl
    exact ⟨j1, fun i p q hp hq => j2 i p q (by rwa [Nat.zero_add]) hq⟩

/-! ### `grid_pattern` -/

/-- **C60, full statement for the pattern.** A grid of rows of the same length is cut in all of its cells. -/
def C60_pattern_full_statement (P : Type) : Prop :=
  ∀ (g : Grid P) (n : ℕ), g.rows ≠ [] → (∀ r ∈ g.rows, r.length = n) →
    ∃ l, g.gridPattern = some l ∧ ∀ i j c, i + 1 < g.rows.length → j + 1 < n → g.cell i j = some c → c ∈ l

/-- **C60.** False: every rectangular grid with two rows and two columns at least which is not square makes `grid_pattern` raise an
`IndexError`. -/
theorem C60_pattern_counterexample {P : Type*} (g : Grid P) (n : ℕ) (hr : 1 < g.rows.length) (hn : 1 < n) (hl : ∀ r ∈ g.rows, r.length = n)
    (hne : n ≠ g.rows.length) : g.gridPattern = none := by
  obtain ⟨r0, rs, hrs⟩ : ∃ r0 rs, g.rows = r0 :: rs := by
    cases h : g.rows
    · rw [h] at hr; simp at hr
    · exact ⟨_, _, rfl⟩
  have hr0 : r0.length = n := hl r0 (by rw [hrs]; simp)
  have mapM_none : ∀ (L : List (ℕ × ℕ)), (∃ ij ∈ L, g.cell ij.1 ij.2 = none) → L.mapM (fun ij => g.cell ij.1 ij.2) = none := by
    intro L
    induction L with
    | nil => rintro ⟨_, h, -⟩; cases h
    | cons a L ih =>
      rintro ⟨ij, hm, h⟩
      rw [List.mapM_cons]
      rcases List.mem_cons.1 hm with rfl | hm
      · rw [h]; rfl
      · rw [ih ⟨ij, hm, h⟩]
        cases g.cell a.1 a.2 <;> rfl
  unfold Grid.gridPattern
  rw [show g.rows[0]? = some r0 by rw [hrs]; rfl]
  apply mapM_none
  rcases Nat.lt_or_gt_of_ne hne with h | h
  · refine ⟨(0, n - 1), ?_, ?_⟩
    · simp only [List.mem_flatMap, List.mem_range, List.mem_map, Prod.mk.injEq, hr0]
      exact ⟨0, by omega, n - 1, by omega, rfl, rfl⟩
    · unfold Grid.cell
      have : (g.rows[0]? >>= (·[n - 1 + 1]?)) = none := by
        rw [show g.rows[0]? = some r0 by rw [hrs]; rfl]
        exact List.getElem?_eq_none (by omega)
      rw [this]
      split <;> simp_all
  · refine ⟨(g.rows.length - 1, 0), ?_, ?_⟩
    · simp only [List.mem_flatMap, List.mem_range, List.mem_map, Prod.mk.injEq, hr0]
      exact ⟨g.rows.length - 1, by omega, 0, by omega, rfl, rfl⟩
    · unfold Grid.cell
      have : (g.rows[g.rows.length - 1 + 1]? >>= (·[0]?)) = none := by
        rw [List.getElem?_eq_none (by omega)]; rfl
      rw [this]
      split <;> simp_all

/-- The full statement is false: two rows of three points. -/
theorem C60_pattern_full_counterexample : ¬C60_pattern_full_statement ℕ := by
  intro h
  obtain ⟨l, hl, -⟩ := h ⟨[[1, 2, 3], [4, 5, 6]], ("+x", "+y")⟩ 3 (by simp) (by simp)
  rw [C60_pattern_counterexample _ 3 (by simp) (by simp) (by simp) (by simp)] at hl
  cases hl

/-- **C60 (partial).** A square grid (as many rows as points in a row) is cut in exactly its `(n - 1)²` cells. -/
theorem C60_pattern_partial {P : Type*} (g : Grid P) (hne : g.rows ≠ []) (hsq : ∀ r ∈ g.rows, r.length = g.rows.length) :
    ∃ l, g.gridPattern = some l ∧ l.length = (g.rows.length - 1) * (g.rows.length - 1) ∧
      (∀ c, c ∈ l ↔ ∃ i j, i + 1 < g.rows.length ∧ j + 1 < g.rows.length ∧ g.cell i j = some c) ∧
      ∀ i j, i + 1 < g.rows.length → j + 1 < g.rows.length → (g.cell i j).isSome := by
  set n := g.rows.length with hn
  obtain ⟨r0, rs, hrs⟩ : ∃ r0 rs, g.rows = r0 :: rs := by
    cases h : g.rows
    · exact absurd h hne
    · exact ⟨_, _, rfl⟩
  have hr0 : r0.length = n := hsq r0 (by rw [hrs]; simp)
  have get : ∀ i j, i < n → j < n → ∃ a, (g.rows[i]? >>= (·[j]?)) = some a := by
    intro i j hi hj
    have e : g.rows[i]? = some g.rows[i] := List.getElem?_eq_getElem hi
    rw [e]
    have hl := hsq _ (List.getElem_mem hi)
    exact ⟨g.rows[i][j], List.getElem?_eq_getElem (by omega)⟩
  have hcell : ∀ i j, i + 1 < n → j + 1 < n → ∃ c, g.cell i j = some c := by
    intro i j hi hj
    obtain ⟨a, ha⟩ := get i j (by omega) (by omega)
    obtain ⟨b, hb⟩ := get (i + 1) j (by omega) (by omega)
    obtain ⟨c, hc⟩ := get (i + 1) (j + 1) (by omega) (by omega)
    obtain ⟨d, hd⟩ := get i (j + 1) (by omega) (by omega)
    exact ⟨[a, b, c, d], by unfold Grid.cell; rw [ha, hb, hc, hd]⟩
  have mapM_some : ∀ (L : List (ℕ × ℕ)), (∀ ij ∈ L, ∃ c, g.cell ij.1 ij.2 = some c) →
      ∃ l, L.mapM (fun ij => g.cell ij.1 ij.2) = some l ∧ l.length = L.length ∧ ∀ c, c ∈ l ↔ ∃ ij ∈ L, g.cell ij.1 ij.2 = some c := by
    intro L
    induction L with
    | nil => intro _; exact ⟨[], rfl, rfl, by simp⟩
    | cons ij L ih =>
      intro h
      obtain ⟨l, hl, hlen, hm⟩ := ih fun x hx => h x (List.mem_cons_of_mem _ hx)
      obtain ⟨c0, hc0⟩ := h ij List.mem_cons_self
      refine ⟨c0 :: l, by rw [List.mapM_cons, hc0, hl]; rfl, by simp [hlen], ?_⟩
      intro c
      simp only [List.mem_cons, hm, exists_eq_or_imp, hc0, Option.some.injEq]
      constructor <;> rintro (h | h) <;> simp [h]
  have hrange : ∀ ij : ℕ × ℕ, ij ∈ ((List.range (r0.length - 1)).flatMap fun i => (List.range (g.rows.length - 1)).map fun j => (i, j)) ↔
      ij.1 + 1 < n ∧ ij.2 + 1 < n := by
    rintro ⟨i, j⟩
    simp only [List.mem_flatMap, List.mem_range, List.mem_map, Prod.mk.injEq, hr0, ← hn]
    constructor
    · rintro ⟨a, ha, b, hb, rfl, rfl⟩; omega
    · rintro ⟨h1, h2⟩; exact ⟨i, by omega, j, by omega, rfl, rfl⟩
  obtain ⟨l, hl, hlen, hm⟩ := mapM_some _ fun ij hij => hcell ij.1 ij.2 ((hrange ij).1 hij).1 ((hrange ij).1 hij).2
  refine ⟨l, ?_, ?_, ?_, ?_⟩
  · unfold Grid.gridPattern
    rw [show g.rows[0]? = some r0 by rw [hrs]; rfl]
    exact hl
  · rw [hlen, List.length_flatMap, hr0, ← hn]
    simp
  · intro c
    rw [hm]
    constructor
    · rintro ⟨ij, h1, h2⟩; exact ⟨ij.1, ij.2, ((hrange ij).1 h1).1, ((hrange ij).1 h1).2, h2⟩
    · rintro ⟨i, j, h1, h2, h3⟩; exact ⟨(i, j), (hrange _).2 ⟨h1, h2⟩, h3⟩
  · intro i j hi hj
    obtain ⟨c, hc⟩ := hcell i j hi hj
    rw [hc]; rfl

/-- Not vacuous. -/
example : Grid.gridPattern ⟨[[1, 2], [3, 4]], ("+x", "+y")⟩ = some [[1, 3, 4, 2]] := by decide +kernel
example : (fromProperties ((0 : ℚ), 1) (2, 4) 2 3 ("-y", "+x")).map Grid.rows =
    some [[⟨0, 4⟩, ⟨0, 3⟩, ⟨0, 2⟩], [⟨1, 4⟩, ⟨1, 3⟩, ⟨1, 2⟩]] := by decide +kernel

end Volmdlr.Grid
