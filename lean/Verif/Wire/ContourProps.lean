import Verif.Wire.WireProps

/-!
# Ordered contours (C51)
-/

namespace Volmdlr.Wire

variable {E P K : Type} [Field K] [LinearOrder K] [IsStrictOrderedRing K] (k : EdgeKit E P K)

lemma all_zip_tail {tol : K} (htol : 0 ≤ tol) (closing : E) : ∀ (a : E) (l : List E),
    (((a :: l).zip (l ++ [closing])).all fun ab => isClose k (k.fin ab.1) (k.start ab.2) tol) = true ↔
      (a :: (l ++ [closing])).IsChain (Follows k tol) := by
  intro a l
  induction l generalizing a with
  | nil => simp [isClose_iff k htol, Follows]
  | cons b l ih =>
    rw [List.cons_append, List.zip_cons_cons, List.all_cons, Bool.and_eq_true, ih b, isClose_iff k htol, List.isChain_cons_cons]
    rfl

/-- C51: a contour, other than one edge shorter than the tolerance and two copies of the same edge, is ordered exactly when each edge starts where the
previous one ends and the first one starts where the last one ends. -/
theorem C51_contour_is_ordered (sameEdge : E → E → Bool) {tol : K} (htol : 0 ≤ tol) (first : E) (rest : List E)
    (h1 : rest = [] → tol < k.length first) (h2 : ∀ second, rest = [second] → sameEdge first second = false) :
    contourIsOrdered k sameEdge tol (first :: rest) = .ok true ↔
      (first :: rest).IsChain (Follows k tol) ∧ ∃ last ∈ (first :: rest).getLast?, k.dist (k.fin last) (k.start first) ≤ tol := by
  unfold contourIsOrdered
  dsimp only
  rw [if_neg, if_neg]
  · rw [Except.ok.injEq, List.tail_cons, all_zip_tail k htol, ← List.cons_append, List.isChain_append]
    constructor
    · rintro ⟨hc, -, hl⟩
      refine ⟨hc, ?_⟩
      obtain ⟨last, hlast⟩ : ∃ last, (first :: rest).getLast? = some last := ⟨_, List.getLast?_eq_some_getLast (by simp)⟩
      exact ⟨last, hlast, hl last hlast first (by simp)⟩
    · rintro ⟨hc, last, hlast, hd⟩
      refine ⟨hc, by simp, ?_⟩
      intro x hx y hy
      rw [hlast] at hx
      simp at hy
      obtain rfl := Option.some.inj hx
      subst hy
      exact hd
  · rintro ⟨hl, second, hs, he⟩
    obtain ⟨s, hs'⟩ := List.length_eq_one_iff.1 (by simpa using hl : rest.length = 1)
    subst hs'
    simp at hs
    subst hs
    rw [h2 _ rfl] at he
    exact absurd he (by simp)
  · rintro ⟨hl, hlen⟩
    have : rest = [] := by simpa using hl
    exact absurd hlen (not_le.2 (h1 this))

-- a triangle is ordered; an open chain is not
example : contourIsOrdered C51_segments (fun _ _ => false) (1 / 10) [(0, 1), (1, 3), (3, 0)] = .ok true ∧
    contourIsOrdered C51_segments (fun _ _ => false) (1 / 10) [(0, 1), (1, 3), (3, 4)] = .ok false := by decide +kernel

end Volmdlr.Wire
