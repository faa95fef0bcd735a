import Verif.Polygon.Model
import Verif.Segment.Props

/-!
# C47, C50: polygon area, centre of mass, moments
-/

namespace Volmdlr
section
variable {K : Type*} [Field K] [LinearOrder K]

/-- Sum of `f` over consecutive pairs of `a :: l`. -/
def chainSum {α : Type*} (f : α → α → K) : α → List α → K
  | _, [] => 0
  | a, b :: l => f a b + chainSum f b l

/-- Specification: the sum of `f` over the edges of the closed polygon (from each vertex to the next, the
last one to the first). -/
def cyclicSum {α : Type*} (f : α → α → K) : List α → K
  | [] => 0
  | a :: l => chainSum f a (l ++ [a])

/-- Specification: twice the signed area of the triangle (origin, p, q). -/
def crossPQ (p q : V2 K) : K := p.x * q.y - p.y * q.x

/-- Specification: the signed area of a polygon (shoelace formula; positive anticlockwise). -/
def signedArea (l : List (V2 K)) : K := cyclicSum crossPQ l / 2

theorem chainSum_append {α : Type*} (f : α → α → K) (a b : α) (l m : List α) :
    chainSum f a (l ++ b :: m) = chainSum f a (l ++ [b]) + chainSum f b m := by
  induction l generalizing a with
  | nil => simp [chainSum]
  | cons c l ih => simp only [List.cons_append, chainSum]; rw [ih]; ring
theorem chainSum_map {α β : Type*} (f : β → β → K) (g : α → β) (a : α) (l : List α) :
    chainSum f (g a) (l.map g) = chainSum (fun p q => f (g p) (g q)) a l := by
  induction l generalizing a with
  | nil => rfl
  | cons b l ih => simp only [List.map_cons, chainSum, ih]
theorem chainSum_add {α : Type*} (f g : α → α → K) (a : α) (l : List α) :
    chainSum (fun p q => f p q + g p q) a l = chainSum f a l + chainSum g a l := by
  induction l generalizing a with
  | nil => simp [chainSum]
  | cons b l ih => simp only [chainSum, ih]; ring
theorem chainSum_smul {α : Type*} (f : α → α → K) (k : K) (a : α) (l : List α) :
    chainSum (fun p q => k * f p q) a l = k * chainSum f a l := by
  induction l generalizing a with
  | nil => simp [chainSum]
  | cons b l ih => simp only [chainSum, ih]; ring
theorem chainSum_telescope {α : Type*} (g : α → K) (a b : α) (l : List α) :
    chainSum (fun p q => g q - g p) a (l ++ [b]) = g b - g a := by
  induction l generalizing a with
  | nil => simp [chainSum]
  | cons c l ih => simp only [List.cons_append, chainSum, ih]; ring
theorem chainSum_reverse {α : Type*} (f : α → α → K) (a b : α) (l : List α) :
    chainSum f b (l.reverse ++ [a]) = chainSum (fun p q => f q p) a (l ++ [b]) := by
  induction l generalizing a with
  | nil => simp [chainSum]
  | cons c l ih =>
    simp only [List.reverse_cons, List.append_assoc, List.cons_append, List.nil_append, chainSum]
    rw [chainSum_append, ih]
    simp [chainSum]; ring

theorem cyclicSum_congr {α : Type*} {f g : α → α → K} (h : ∀ p q, f p q = g p q) (l : List α) :
    cyclicSum f l = cyclicSum g l := by
  have : f = g := by funext p q; exact h p q
  rw [this]
theorem cyclicSum_map {α β : Type*} (f : β → β → K) (g : α → β) (l : List α) :
    cyclicSum f (l.map g) = cyclicSum (fun p q => f (g p) (g q)) l := by
  cases l with
  | nil => rfl
  | cons a l =>
    simp only [List.map_cons, cyclicSum]
    rw [show l.map g ++ [g a] = (l ++ [a]).map g by simp, chainSum_map]
theorem cyclicSum_add {α : Type*} (f g : α → α → K) (l : List α) :
    cyclicSum (fun p q => f p q + g p q) l = cyclicSum f l + cyclicSum g l := by
  cases l with
  | nil => simp [cyclicSum]
  | cons a l => simp only [cyclicSum, chainSum_add]
theorem cyclicSum_smul {α : Type*} (f : α → α → K) (k : K) (l : List α) :
    cyclicSum (fun p q => k * f p q) l = k * cyclicSum f l := by
  cases l with
  | nil => simp [cyclicSum]
  | cons a l => simp only [cyclicSum, chainSum_smul]
theorem cyclicSum_telescope {α : Type*} (g : α → K) (l : List α) :
    cyclicSum (fun p q => g q - g p) l = 0 := by
  cases l with
  | nil => simp [cyclicSum]
  | cons a l => simp only [cyclicSum, chainSum_telescope, sub_self]
theorem cyclicSum_rotate_one {α : Type*} (f : α → α → K) (a : α) (l : List α) :
    cyclicSum f (l ++ [a]) = cyclicSum f (a :: l) := by
  cases l with
  | nil => rfl
  | cons b l =>
    simp only [List.cons_append, cyclicSum, chainSum]
    rw [List.append_assoc, List.singleton_append, chainSum_append]
    simp [chainSum]; ring
theorem cyclicSum_rotate {α : Type*} (f : α → α → K) (l m : List α) :
    cyclicSum f (l ++ m) = cyclicSum f (m ++ l) := by
  induction l generalizing m with
  | nil => simp
  | cons a l ih =>
    rw [List.cons_append, ← cyclicSum_rotate_one, List.append_assoc, ih, List.append_assoc, List.singleton_append]
theorem cyclicSum_reverse {α : Type*} (f : α → α → K) (l : List α) :
    cyclicSum f l.reverse = cyclicSum (fun p q => f q p) l := by
  cases l with
  | nil => rfl
  | cons a l =>
    rw [List.reverse_cons, cyclicSum_rotate_one]
    simp only [cyclicSum, chainSum_reverse]

/-- The two list shapes of the code compute cyclic sums. -/
theorem zip_rollLeft {α : Type*} (f : α → α → K) (l : List α) :
    (List.zipWith f l (rollLeft l)).sum = cyclicSum f l := by
  cases l with
  | nil => rfl
  | cons a t =>
    have gen : ∀ (t : List α) (a z : α), (List.zipWith f (a :: t) (t ++ [z])).sum = chainSum f a (t ++ [z]) := by
      intro t
      induction t with
      | nil => intro a z; simp [chainSum]
      | cons b t ih => intro a z; simp only [List.cons_append, List.zipWith_cons_cons, List.sum_cons, chainSum, ih]
    exact gen t a a
theorem zip_rollRight {α : Type*} (f : α → α → K) (l : List α) :
    (List.zipWith f l (rollRight l)).sum = cyclicSum (fun p q => f q p) l := by
  cases l with
  | nil => rfl
  | cons a t =>
    have gen : ∀ (t : List α) (a z : α), (List.zipWith f (a :: t) (z :: (a :: t).dropLast)).sum =
        f a z + chainSum (fun p q => f q p) a t := by
      intro t
      induction t with
      | nil => intro a z; simp [chainSum]
      | cons b t ih =>
        intro a z
        rw [List.dropLast_cons₂, List.zipWith_cons_cons, List.sum_cons, ih]
        simp [chainSum]
    have hr : rollRight (a :: t) = (a :: t).getLast (by simp) :: (a :: t).dropLast := by
      simp [rollRight, List.getLast?_eq_some_getLast]
    rw [hr, gen]
    simp only [cyclicSum]
    rcases List.eq_nil_or_concat t with rfl | ⟨t', z, rfl⟩
    · simp [chainSum]
    · simp only [List.concat_eq_append]
      rw [List.append_assoc, List.singleton_append, chainSum_append _ a z t' [a]]
      simp [chainSum, add_comm]

theorem rollRight_map {α β : Type*} (g : α → β) (l : List α) : rollRight (l.map g) = (rollRight l).map g := by
  unfold rollRight
  rw [List.getLast?_map]
  cases l.getLast? with
  | none => rfl
  | some z => simp
theorem rollLeft_map {α β : Type*} (g : α → β) (l : List α) : rollLeft (l.map g) = (rollLeft l).map g := by
  cases l <;> simp [rollLeft]

theorem zipWith_map_xy {α β γ : Type*} (h : β → β → γ) (f g : α → β) (l m : List α) :
    List.zipWith h (l.map f) (m.map g) = List.zipWith (fun p q => h (f p) (g q)) l m := by
  rw [List.zipWith_map]

theorem cyclicSum_sub {α : Type*} (f g : α → α → K) (l : List α) :
    cyclicSum (fun p q => f p q - g p q) l = cyclicSum f l - cyclicSum g l := by
  have h := cyclicSum_add f (fun p q => (-1) * g p q) l
  rw [cyclicSum_smul] at h
  rw [cyclicSum_congr (g := fun p q => f p q + -1 * g p q) (fun p q => by ring), h]; ring

end

section
variable {K : Type*} [Field K] [LinearOrder K] [IsStrictOrderedRing K]

/-- **C47** `ClosedPolygon2D.area` is the absolute value of the signed area given by the shoelace formula. -/
theorem C47_area_shoelace (l : List (V2 K)) : polygonArea l = |signedArea l| := by
  unfold polygonArea
  split
  · rename_i h
    unfold signedArea
    match l, h with
    | [], _ => simp [cyclicSum]
    | [a], _ =>
      have : cyclicSum crossPQ [a] = 0 := by simp [cyclicSum, chainSum, crossPQ]; ring
      rw [this]; simp
    | [a, b], _ =>
      have : cyclicSum crossPQ [a, b] = 0 := by simp [cyclicSum, chainSum, crossPQ]; ring
      rw [this]; simp
    | a :: b :: c :: t, h => simp at h; omega
  · simp only [rollRight_map, zipWith_map_xy, zip_rollRight]
    unfold signedArea
    have e : cyclicSum (fun p q : V2 K => q.x * p.y) l - cyclicSum (fun p q : V2 K => q.y * p.x) l =
        -cyclicSum crossPQ l := by
      rw [← cyclicSum_sub, ← neg_one_mul, ← cyclicSum_smul]
      apply cyclicSum_congr; intro p q; unfold crossPQ; ring
    rw [e, abs_neg, abs_div, abs_of_pos (by norm_num : (0 : K) < 2)]; ring

theorem signedArea_affine (m11 m12 m21 m22 dx dy : K) (l : List (V2 K)) :
    signedArea (l.map fun p => ⟨m11 * p.x + m12 * p.y + dx, m21 * p.x + m22 * p.y + dy⟩) =
      (m11 * m22 - m12 * m21) * signedArea l := by
  unfold signedArea
  rw [cyclicSum_map]
  have e : cyclicSum (fun p q : V2 K => crossPQ ⟨m11 * p.x + m12 * p.y + dx, m21 * p.x + m22 * p.y + dy⟩
      ⟨m11 * q.x + m12 * q.y + dx, m21 * q.x + m22 * q.y + dy⟩) l =
      cyclicSum (fun p q : V2 K => (m11 * m22 - m12 * m21) * crossPQ p q +
        ((dx * (m21 * q.x + m22 * q.y) - dy * (m11 * q.x + m12 * q.y)) -
         (dx * (m21 * p.x + m22 * p.y) - dy * (m11 * p.x + m12 * p.y)))) l := by
    apply cyclicSum_congr; intro p q; simp only [crossPQ]; ring
  rw [e, cyclicSum_add, cyclicSum_smul,
    cyclicSum_telescope (fun p : V2 K => dx * (m21 * p.x + m22 * p.y) - dy * (m11 * p.x + m12 * p.y))]
  ring

/-- **C47** under an affine map with determinant `d` the area is multiplied by `|d|`; in particular it is
invariant under translations and rotations, and scales quadratically. -/
theorem C47_area_affine (m11 m12 m21 m22 dx dy : K) (l : List (V2 K)) :
    polygonArea (l.map fun p => ⟨m11 * p.x + m12 * p.y + dx, m21 * p.x + m22 * p.y + dy⟩) =
      |m11 * m22 - m12 * m21| * polygonArea l := by
  rw [C47_area_shoelace, C47_area_shoelace, signedArea_affine, abs_mul]

/-- **C47** invariance under translation (`ClosedPolygon2D.translation`). -/
theorem C47_area_translation (d : V2 K) (l : List (V2 K)) : polygonArea (l.map (· + d)) = polygonArea l := by
  have h := C47_area_affine 1 0 0 1 d.x d.y l
  have e : (l.map fun p : V2 K => (⟨1 * p.x + 0 * p.y + d.x, 0 * p.x + 1 * p.y + d.y⟩ : V2 K)) = l.map (· + d) := by
    apply List.map_congr_left; intro p _; ext <;> simp
  rw [e] at h
  rw [h]; simp

/-- **C47** invariance under rotation about any centre (`ClosedPolygon2D.rotation`), the rotation being
given by its cosine and sine. -/
theorem C47_area_rotation (c : V2 K) (cs sn : K) (h1 : cs ^ 2 + sn ^ 2 = 1) (l : List (V2 K)) :
    polygonArea (l.map fun p => V2.rotationCS p c cs sn) = polygonArea l := by
  have h := C47_area_affine cs (-sn) sn cs (c.x - (c.x * cs - c.y * sn)) (c.y - (c.x * sn + c.y * cs)) l
  have e : (l.map fun p : V2 K => (⟨cs * p.x + -sn * p.y + (c.x - (c.x * cs - c.y * sn)),
      sn * p.x + cs * p.y + (c.y - (c.x * sn + c.y * cs))⟩ : V2 K)) = l.map fun p => V2.rotationCS p c cs sn := by
    apply List.map_congr_left; intro p _; ext <;> simp [V2.rotationCS] <;> ring
  rw [e] at h
  rw [h, show cs * cs - -sn * sn = 1 by linear_combination h1]; simp

/-- **C47** scaling by a factor multiplies the area by its square. -/
theorem C47_area_scale (k : K) (l : List (V2 K)) :
    polygonArea (l.map fun p => ⟨k * p.x, k * p.y⟩) = k ^ 2 * polygonArea l := by
  have h := C47_area_affine k 0 0 k 0 0 l
  simp only [zero_mul, add_zero, zero_add, mul_zero, sub_zero, abs_mul_abs_self, abs_mul] at h
  rw [h]; ring

/-- **C47** the area depends neither on the first vertex nor on the orientation. -/
theorem C47_area_renumbering (l m : List (V2 K)) :
    polygonArea (l ++ m) = polygonArea (m ++ l) ∧ polygonArea l.reverse = polygonArea l := by
  constructor
  · rw [C47_area_shoelace, C47_area_shoelace, signedArea, signedArea, cyclicSum_rotate]
  · rw [C47_area_shoelace, C47_area_shoelace, signedArea, signedArea, cyclicSum_reverse]
    have : cyclicSum (fun p q : V2 K => crossPQ q p) l = -cyclicSum crossPQ l := by
      rw [← neg_one_mul, ← cyclicSum_smul]; apply cyclicSum_congr; intro p q; unfold crossPQ; ring
    rw [this, neg_div, abs_neg]

/-- **C47** a three-point polygon has the area of the triangle. -/
theorem C47_area_triangle (p q r : V2 K) : polygonArea [p, q, r] = triangleArea p q r := by
  rw [C47_area_shoelace]
  unfold signedArea triangleArea
  rw [abs_div, abs_of_pos (by norm_num : (0 : K) < 2)]
  congr 2
  simp [cyclicSum, chainSum, crossPQ]; ring

/-- **C47** cutting a polygon `a, l, b, m` along the chord `a b`: signed areas add up; so areas add up when
the two parts have the same orientation. -/
theorem C47_area_chord (a b : V2 K) (l m : List (V2 K)) :
    signedArea (a :: l ++ b :: m) = signedArea (a :: l ++ [b]) + signedArea (b :: m ++ [a]) ∧
    (0 ≤ signedArea (a :: l ++ [b]) * signedArea (b :: m ++ [a]) →
      polygonArea (a :: l ++ b :: m) = polygonArea (a :: l ++ [b]) + polygonArea (b :: m ++ [a])) := by
  have h : signedArea (a :: l ++ b :: m) = signedArea (a :: l ++ [b]) + signedArea (b :: m ++ [a]) := by
    unfold signedArea
    simp only [List.cons_append, cyclicSum]
    rw [List.append_assoc, List.append_assoc, List.append_assoc, List.cons_append, chainSum_append,
      List.singleton_append, List.singleton_append, chainSum_append crossPQ a b l [a],
      chainSum_append crossPQ b a m [b]]
    have : chainSum crossPQ b [a] + chainSum crossPQ a [b] = 0 := by simp [chainSum, crossPQ]; ring
    linear_combination (-1 / 2) * this
  refine ⟨h, fun hs => ?_⟩
  simp only [C47_area_shoelace, h]
  exact abs_add_eq_add_abs_iff _ _ |>.2 (by
    rcases mul_nonneg_iff.1 hs with h | h
    · exact Or.inl h
    · exact Or.inr h)

example : polygonArea [(⟨0, 0⟩ : V2 ℚ), ⟨2, 0⟩, ⟨2, 1⟩, ⟨0, 1⟩] = 2 := by decide +kernel
example : (3 / 5 : ℚ) ^ 2 + (4 / 5) ^ 2 = 1 := by norm_num
example : 0 ≤ signedArea ([⟨0, 0⟩, ⟨2, 0⟩, ⟨2, 1⟩] : List (V2 ℚ)) * signedArea ([⟨2, 1⟩, ⟨0, 1⟩, ⟨0, 0⟩] : List (V2 ℚ)) := by
  decide +kernel

/-! ## C50 -/

/-- The first moments. -/
def momX (p q : V2 K) : K := (p.x + q.x) * crossPQ p q
def momY (p q : V2 K) : K := (p.y + q.y) * crossPQ p q

theorem zipWith_zipWith_same {α β γ δ : Type*} (h : β → γ → δ) (f : α → α → β) (g : α → α → γ) (l m : List α) :
    List.zipWith h (List.zipWith f l m) (List.zipWith g l m) = List.zipWith (fun a b => h (f a b) (g a b)) l m := by
  induction l generalizing m with
  | nil => simp
  | cons a l ih => cases m with
    | nil => simp
    | cons b m => simp [ih]

/-- **C50** `center_of_mass` of a polygon of at least three points: the classical formula, and an error
exactly when the signed area is at most `1e-12` in absolute value. -/
theorem C50_center_formula (l : List (V2 K)) (hl : 3 ≤ l.length) :
    (|signedArea l| ≤ 1 / 10 ^ 12 → polygonCenterOfMass l = .error .notImplemented) ∧
    (1 / 10 ^ 12 < |signedArea l| → polygonCenterOfMass l =
      .ok ⟨cyclicSum momX l / 6 / signedArea l, cyclicSum momY l / 6 / signedArea l⟩) := by
  match l, hl with
  | a :: b :: c :: t, _ =>
    generalize hL : a :: b :: c :: t = L
    have hdef : polygonCenterOfMass L =
        (let x := L.map V2.x
         let y := L.map V2.y
         let xi_xi1 := List.zipWith (· + ·) x (rollLeft x)
         let yi_yi1 := List.zipWith (· + ·) y (rollLeft y)
         let xi_yi1 := List.zipWith (· * ·) x (rollLeft y)
         let xi1_yi := List.zipWith (· * ·) (rollLeft x) y
         let diff := List.zipWith (· - ·) xi_yi1 xi1_yi
         let signed_area := 1 / 2 * diff.sum
         if ¬ |signed_area| ≤ 1 / 10 ^ 12 then
           .ok ⟨(List.zipWith (· * ·) xi_xi1 diff).sum / 6 / signed_area,
                (List.zipWith (· * ·) yi_yi1 diff).sum / 6 / signed_area⟩
         else .error .notImplemented) := by
      rw [← hL]; rfl
    have hcomm : List.zipWith (fun x1 x2 : K => x1 * x2) (List.map V2.x (rollLeft L)) (List.map V2.y L) =
        List.zipWith (fun p q : V2 K => q.x * p.y) L (rollLeft L) := by
      rw [zipWith_map_xy, List.zipWith_comm]
    have hdiff : List.zipWith (fun x1 x2 : K => x1 - x2)
        (List.zipWith (fun x1 x2 : K => x1 * x2) (List.map V2.x L) (List.map V2.y (rollLeft L)))
        (List.zipWith (fun x1 x2 : K => x1 * x2) (List.map V2.x (rollLeft L)) (List.map V2.y L)) =
        List.zipWith crossPQ L (rollLeft L) := by
      rw [hcomm, zipWith_map_xy, zipWith_zipWith_same]
      congr 1; funext p q; unfold crossPQ; ring
    simp only [rollLeft_map] at hdef
    rw [hdiff] at hdef
    simp only [zipWith_map_xy, zipWith_zipWith_same, zip_rollLeft] at hdef
    have hsa : 1 / 2 * cyclicSum crossPQ L = signedArea L := by unfold signedArea; ring
    rw [hsa] at hdef
    constructor
    · intro h; rw [hdef, if_neg (by simpa using h)]
    · intro h; rw [hdef, if_pos (not_le.2 h)]; rfl

theorem momX_affine (m11 m12 m21 m22 dx dy : K) (l : List (V2 K)) :
    cyclicSum momX (l.map fun p => ⟨m11 * p.x + m12 * p.y + dx, m21 * p.x + m22 * p.y + dy⟩) =
      (m11 * m22 - m12 * m21) * (m11 * cyclicSum momX l + m12 * cyclicSum momY l + 3 * dx * cyclicSum crossPQ l) := by
  rw [cyclicSum_map, ← cyclicSum_smul, ← cyclicSum_smul, ← cyclicSum_smul, ← cyclicSum_add, ← cyclicSum_add,
    ← cyclicSum_smul, ← sub_eq_zero, ← cyclicSum_sub]
  -- the difference of the two sides telescopes
  set g : V2 K → K := fun p =>
    let X := m11 * p.x + m12 * p.y
    let Y := m21 * p.x + m22 * p.y
    dx * X * Y - dy * X ^ 2 + 2 * dx * (dx * Y - dy * X) with hg
  rw [← cyclicSum_telescope g l]
  apply cyclicSum_congr
  intro p q
  simp only [hg, momX, momY, crossPQ]
  ring

/-- Exchange of the two coordinates. -/
theorem momY_swap (l : List (V2 K)) :
    cyclicSum momY l = -cyclicSum momX (l.map fun p => ⟨p.y, p.x⟩) := by
  rw [cyclicSum_map, ← neg_one_mul, ← cyclicSum_smul]
  apply cyclicSum_congr; intro p q; simp only [momX, momY, crossPQ]; ring

theorem momY_affine (m11 m12 m21 m22 dx dy : K) (l : List (V2 K)) :
    cyclicSum momY (l.map fun p => ⟨m11 * p.x + m12 * p.y + dx, m21 * p.x + m22 * p.y + dy⟩) =
      (m11 * m22 - m12 * m21) * (m21 * cyclicSum momX l + m22 * cyclicSum momY l + 3 * dy * cyclicSum crossPQ l) := by
  rw [momY_swap, List.map_map]
  have h := momX_affine m21 m22 m11 m12 dy dx l
  have e : List.map ((fun p : V2 K => (⟨p.y, p.x⟩ : V2 K)) ∘ fun p =>
      ⟨m11 * p.x + m12 * p.y + dx, m21 * p.x + m22 * p.y + dy⟩) l =
      l.map fun p => ⟨m21 * p.x + m22 * p.y + dy, m11 * p.x + m12 * p.y + dx⟩ := by
    apply List.map_congr_left; intro p _; rfl
  rw [e, h]; ring

/-- **C50** the centre of mass follows every area-preserving affine map (translations, rotations,
symmetries): if the code returns the centre `c` for the polygon it returns the image of `c` for the image
polygon, and it raises for the one iff it raises for the other. -/
theorem C50_center_equivariant (m11 m12 m21 m22 dx dy : K) (hdet : |m11 * m22 - m12 * m21| = 1)
    (l : List (V2 K)) (hl : 3 ≤ l.length) :
    polygonCenterOfMass (l.map fun p => ⟨m11 * p.x + m12 * p.y + dx, m21 * p.x + m22 * p.y + dy⟩) =
      (polygonCenterOfMass l).map fun p => ⟨m11 * p.x + m12 * p.y + dx, m21 * p.x + m22 * p.y + dy⟩ := by
  have hl' : 3 ≤ (l.map fun p : V2 K => (⟨m11 * p.x + m12 * p.y + dx, m21 * p.x + m22 * p.y + dy⟩ : V2 K)).length := by
    simpa using hl
  have ha : |signedArea (l.map fun p : V2 K => (⟨m11 * p.x + m12 * p.y + dx, m21 * p.x + m22 * p.y + dy⟩ : V2 K))| =
      |signedArea l| := by rw [signedArea_affine, abs_mul, hdet, one_mul]
  rcases le_or_gt |signedArea l| (1 / 10 ^ 12) with h | h
  · rw [(C50_center_formula _ hl').1 (by rw [ha]; exact h), (C50_center_formula _ hl).1 h]; rfl
  · rw [(C50_center_formula _ hl').2 (by rw [ha]; exact h), (C50_center_formula _ hl).2 h]
    have hs : signedArea l ≠ 0 := by
      intro e; rw [e, abs_zero] at h
      have : (0 : K) < 1 / 10 ^ 12 := by positivity
      linarith
    have hd : m11 * m22 - m12 * m21 ≠ 0 := by
      intro e; rw [e, abs_zero] at hdet; exact zero_ne_one hdet
    have hc : cyclicSum crossPQ l = 2 * signedArea l := by unfold signedArea; ring
    rw [momX_affine, momY_affine, signedArea_affine, hc]
    simp only [Except.map]
    congr 1
    generalize signedArea l = A at hs
    generalize m11 * m22 - m12 * m21 = D at hd
    ext
    · field_simp; ring
    · field_simp; ring

/-- **C50** the centre of mass does not depend on the orientation nor on the first vertex. -/
theorem C50_center_renumbering (l m : List (V2 K)) (hl : 3 ≤ (l ++ m).length) :
    polygonCenterOfMass (l ++ m) = polygonCenterOfMass (m ++ l) ∧
    polygonCenterOfMass (l ++ m).reverse = polygonCenterOfMass (l ++ m) := by
  have hl' : 3 ≤ (m ++ l).length := by simp only [List.length_append] at *; omega
  have hl'' : 3 ≤ (l ++ m).reverse.length := by simp only [List.length_reverse]; exact hl
  have e1 : signedArea (m ++ l) = signedArea (l ++ m) := by unfold signedArea; rw [cyclicSum_rotate]
  have rev : ∀ f : V2 K → V2 K → K, (∀ p q, f q p = - f p q) → cyclicSum f (l ++ m).reverse = -cyclicSum f (l ++ m) := by
    intro f hf
    rw [cyclicSum_reverse, ← neg_one_mul, ← cyclicSum_smul]; apply cyclicSum_congr; intro p q; rw [hf]; ring
  have e2 : signedArea (l ++ m).reverse = -signedArea (l ++ m) := by
    unfold signedArea; rw [rev crossPQ (fun p q => by unfold crossPQ; ring)]; ring
  rcases le_or_gt |signedArea (l ++ m)| (1 / 10 ^ 12) with h | h
  · constructor
    · rw [(C50_center_formula _ hl).1 h, (C50_center_formula _ hl').1 (by rw [e1]; exact h)]
    · rw [(C50_center_formula _ hl).1 h, (C50_center_formula _ hl'').1 (by rw [e2, abs_neg]; exact h)]
  · constructor
    · rw [(C50_center_formula _ hl).2 h, (C50_center_formula _ hl').2 (by rw [e1]; exact h), e1,
        cyclicSum_rotate momX m l, cyclicSum_rotate momY m l]
    · rw [(C50_center_formula _ hl).2 h, (C50_center_formula _ hl'').2 (by rw [e2, abs_neg]; exact h), e2,
        rev momX (fun p q => by unfold momX crossPQ; ring), rev momY (fun p q => by unfold momY crossPQ; ring)]
      simp only [neg_div, div_neg, neg_neg]
example : polygonCenterOfMass [(⟨0, 0⟩ : V2 ℚ), ⟨2, 0⟩, ⟨2, 1⟩, ⟨0, 1⟩] = .ok ⟨1, 1 / 2⟩ := by decide +kernel

/-- **C50** the barycenter is the mean of the points, and moves with every affine map. -/
theorem C50_barycenter (l : List (V2 K)) (hl : l ≠ []) :
    polygonBarycenter l = .ok ⟨(l.map V2.x).sum / l.length, (l.map V2.y).sum / l.length⟩ := by
  match l, hl with
  | p :: ps, _ =>
    have gen : ∀ (ps : List (V2 K)) (p : V2 K), ps.foldl (fun b point => b + point) p =
        ⟨p.x + (ps.map V2.x).sum, p.y + (ps.map V2.y).sum⟩ := by
      intro ps
      induction ps with
      | nil => intro p; ext <;> simp
      | cons a ps ih => intro p; rw [List.foldl_cons, ih]; ext <;> simp <;> ring
    simp only [polygonBarycenter, gen, List.map_cons, List.sum_cons]

/-- Specification: the three raw second moments (before the sign normalisation). -/
def rawMoments (l : List (V2 K)) (o : V2 K) : K × K × K :=
  (cyclicSum (fun p q : V2 K => ((p.y - o.y) ^ 2 + (p.y - o.y) * (q.y - o.y) + (q.y - o.y) ^ 2) *
      ((p.x - o.x) * (q.y - o.y) - (q.x - o.x) * (p.y - o.y))) l,
   cyclicSum (fun p q : V2 K => ((p.x - o.x) ^ 2 + (p.x - o.x) * (q.x - o.x) + (q.x - o.x) ^ 2) *
      ((p.x - o.x) * (q.y - o.y) - (q.x - o.x) * (p.y - o.y))) l,
   cyclicSum (fun p q : V2 K => ((p.x - o.x) * (q.y - o.y) + 2 * (p.x - o.x) * (p.y - o.y) +
      2 * (q.x - o.x) * (q.y - o.y) + (q.x - o.x) * (p.y - o.y)) *
      ((p.x - o.x) * (q.y - o.y) - (q.x - o.x) * (p.y - o.y))) l)

theorem secondMoment_eq (l : List (V2 K)) (o : V2 K) :
    secondMomentArea l o =
      (let s := rawMoments l o
       let s := if s.1 < 0 then (-s.1, -s.2.1, -s.2.2) else s
       (s.1 / 12, s.2.1 / 12, s.2.2 / 24)) := by
  have gen : ∀ (f g h : V2 K → V2 K → K) (e : List (V2 K × V2 K)) (acc : K × K × K),
      e.foldl (fun (acc : K × K × K) (pq : V2 K × V2 K) =>
        (acc.1 + f pq.1 pq.2, acc.2.1 + g pq.1 pq.2, acc.2.2 + h pq.1 pq.2)) acc =
      (acc.1 + (e.map fun pq => f pq.1 pq.2).sum, acc.2.1 + (e.map fun pq => g pq.1 pq.2).sum,
        acc.2.2 + (e.map fun pq => h pq.1 pq.2).sum) := by
    intro f g h e
    induction e with
    | nil => intro acc; simp
    | cons a e ih => intro acc; rw [List.foldl_cons, ih]; simp [add_assoc]
  have hz : ∀ f : V2 K → V2 K → K, ((l.zip (rollLeft l)).map fun pq => f pq.1 pq.2).sum = cyclicSum f l := by
    intro f
    rw [← zip_rollLeft, List.zip, List.map_zipWith]
  unfold secondMomentArea
  dsimp only
  rw [gen (fun p q : V2 K => ((p.y - o.y) ^ 2 + (p.y - o.y) * (q.y - o.y) + (q.y - o.y) ^ 2) *
      ((p.x - o.x) * (q.y - o.y) - (q.x - o.x) * (p.y - o.y)))
      (fun p q : V2 K => ((p.x - o.x) ^ 2 + (p.x - o.x) * (q.x - o.x) + (q.x - o.x) ^ 2) *
      ((p.x - o.x) * (q.y - o.y) - (q.x - o.x) * (p.y - o.y)))
      (fun p q : V2 K => ((p.x - o.x) * (q.y - o.y) + 2 * (p.x - o.x) * (p.y - o.y) +
      2 * (q.x - o.x) * (q.y - o.y) + (q.x - o.x) * (p.y - o.y)) *
      ((p.x - o.x) * (q.y - o.y) - (q.x - o.x) * (p.y - o.y)))]
  have h1 := hz (fun p q : V2 K => ((p.y - o.y) ^ 2 + (p.y - o.y) * (q.y - o.y) + (q.y - o.y) ^ 2) *
      ((p.x - o.x) * (q.y - o.y) - (q.x - o.x) * (p.y - o.y)))
  have h2 := hz (fun p q : V2 K => ((p.x - o.x) ^ 2 + (p.x - o.x) * (q.x - o.x) + (q.x - o.x) ^ 2) *
      ((p.x - o.x) * (q.y - o.y) - (q.x - o.x) * (p.y - o.y)))
  have h3 := hz (fun p q : V2 K => ((p.x - o.x) * (q.y - o.y) + 2 * (p.x - o.x) * (p.y - o.y) +
      2 * (q.x - o.x) * (q.y - o.y) + (q.x - o.x) * (p.y - o.y)) *
      ((p.x - o.x) * (q.y - o.y) - (q.x - o.x) * (p.y - o.y)))
  simp only [zero_add, h1, h2, h3]
  rfl

/-- **C50** `second_moment_area` is unchanged when polygon and reference point are translated together,
when another first vertex is chosen, and (if the x moment is not zero) when the orientation is reversed. -/
theorem C50_second_moment (l m : List (V2 K)) (o d : V2 K) :
    secondMomentArea (l.map (· + d)) (o + d) = secondMomentArea l o ∧
    secondMomentArea (l ++ m) o = secondMomentArea (m ++ l) o ∧
    ((secondMomentArea l o).1 ≠ 0 → secondMomentArea l.reverse o = secondMomentArea l o) := by
  refine ⟨?_, ?_, ?_⟩
  · rw [secondMoment_eq, secondMoment_eq]
    have : rawMoments (l.map (· + d)) (o + d) = rawMoments l o := by
      unfold rawMoments
      simp only [cyclicSum_map, V2.add_x, V2.add_y, add_sub_add_right_eq_sub]
    rw [this]
  · rw [secondMoment_eq, secondMoment_eq]
    have : rawMoments (l ++ m) o = rawMoments (m ++ l) o := by
      unfold rawMoments
      simp only [cyclicSum_rotate _ l m]
    rw [this]
  · intro h0
    rw [secondMoment_eq, secondMoment_eq]
    rw [secondMoment_eq] at h0
    have rev : ∀ f : V2 K → V2 K → K, (∀ p q, f q p = - f p q) → cyclicSum f l.reverse = -cyclicSum f l := by
      intro f hf
      rw [cyclicSum_reverse, ← neg_one_mul, ← cyclicSum_smul]; apply cyclicSum_congr; intro p q; rw [hf]; ring
    have : rawMoments l.reverse o = (-(rawMoments l o).1, -(rawMoments l o).2.1, -(rawMoments l o).2.2) := by
      unfold rawMoments
      refine Prod.ext ?_ (Prod.ext ?_ ?_)
      · apply rev; intro p q; ring
      · apply rev; intro p q; ring
      · apply rev; intro p q; ring
    rw [this]
    generalize rawMoments l o = s at h0
    obtain ⟨a, b, c⟩ := s
    dsimp only at *
    rcases lt_trichotomy a 0 with h | h | h
    · rw [if_neg (by simp; exact h.le), if_pos h]
    · exfalso; apply h0; subst h; simp
    · rw [if_pos (by simpa using h), if_neg (not_lt.2 h.le)]; simp

/-- **C50** parallel-axis (Huygens–Steiner) theorem for the raw moment about the x axis: moving the
reference point from the centre of mass `g` to `o` adds `area · dy²`. -/
theorem C50_parallel_axis (l : List (V2 K)) (g o : V2 K) (hl : 3 ≤ l.length)
    (hg : polygonCenterOfMass l = .ok g) :
    (rawMoments l o).1 / 12 = (rawMoments l g).1 / 12 + signedArea l * (g.y - o.y) ^ 2 ∧
    (rawMoments l o).2.1 / 12 = (rawMoments l g).2.1 / 12 + signedArea l * (g.x - o.x) ^ 2 := by
  have hpos : 1 / 10 ^ 12 < |signedArea l| := by
    by_contra hc
    rw [(C50_center_formula l hl).1 (not_lt.1 hc)] at hg
    cases hg
  rw [(C50_center_formula l hl).2 hpos] at hg
  have hs : signedArea l ≠ 0 := by
    intro e; rw [e, abs_zero] at hpos
    have : (0 : K) < 1 / 10 ^ 12 := by positivity
    linarith
  have hg' := Except.ok.inj hg
  have hx : cyclicSum momX l = 6 * signedArea l * g.x := by
    rw [← hg']; field_simp
  have hy : cyclicSum momY l = 6 * signedArea l * g.y := by
    rw [← hg']; field_simp
  have hc : cyclicSum crossPQ l = 2 * signedArea l := by unfold signedArea; ring
  -- moments about any point in terms of those about the origin
  have expand : ∀ o : V2 K,
      (rawMoments l o).1 = (rawMoments l ⟨0, 0⟩).1 - 4 * o.y * cyclicSum momY l + 6 * o.y ^ 2 * cyclicSum crossPQ l ∧
      (rawMoments l o).2.1 = (rawMoments l ⟨0, 0⟩).2.1 - 4 * o.x * cyclicSum momX l + 6 * o.x ^ 2 * cyclicSum crossPQ l := by
    intro o
    constructor
    · unfold rawMoments
      dsimp only
      rw [← cyclicSum_smul, ← cyclicSum_smul, ← cyclicSum_sub, ← cyclicSum_add, ← sub_eq_zero, ← cyclicSum_sub]
      refine Eq.trans (cyclicSum_congr ?_ l) (cyclicSum_telescope (fun p : V2 K => -o.x * p.y ^ 3 + o.y * p.x * p.y ^ 2
        + 3 * o.x * o.y * p.y ^ 2 - 3 * o.y ^ 2 * p.x * p.y - 3 * o.x * o.y ^ 2 * p.y + 3 * o.y ^ 3 * p.x) l)
      intro p q; simp only [momY, crossPQ]; ring
    · unfold rawMoments
      dsimp only
      rw [← cyclicSum_smul, ← cyclicSum_smul, ← cyclicSum_sub, ← cyclicSum_add, ← sub_eq_zero, ← cyclicSum_sub]
      refine Eq.trans (cyclicSum_congr ?_ l) (cyclicSum_telescope (fun p : V2 K => o.y * p.x ^ 3 - o.x * p.y * p.x ^ 2
        - 3 * o.x * o.y * p.x ^ 2 + 3 * o.x ^ 2 * p.x * p.y + 3 * o.y * o.x ^ 2 * p.x - 3 * o.x ^ 3 * p.y) l)
      intro p q; simp only [momX, crossPQ]; ring
  rw [(expand o).1, (expand g).1, (expand o).2, (expand g).2, hx, hy, hc]
  constructor <;> ring
example : (secondMomentArea [(⟨0, 0⟩ : V2 ℚ), ⟨2, 0⟩, ⟨2, 1⟩, ⟨0, 1⟩] ⟨0, 0⟩).1 = 2 / 3 := by decide +kernel
end
end Volmdlr
