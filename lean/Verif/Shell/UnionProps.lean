import Verif.Shell.UnionModel
import Mathlib.Data.List.Perm.Basic
import Mathlib.Data.List.Forall2
import Mathlib.Data.List.Flatten
import Mathlib.Data.Set.Lattice
import Mathlib.Tactic.Linarith

/-!
# Union of a list of shells (C177)
-/

namespace Volmdlr.SetOps

variable {S P : Type*}

/-! ## Specification -/

/-- A union and a merging of faces do their work: two shells apart are given back, two shells that share a point give one shell of the
points of both, and merging the faces of a shell keeps its points. -/
structure UnionSpec (content : S → Set P) (union : S → S → List S) (merge : S → S) : Prop where
  apart : ∀ a b : S, Disjoint (content a) (content b) → union a b = [a, b]
  joined : ∀ a b : S, ¬Disjoint (content a) (content b) → ∃ c : S, union a b = [c] ∧ content c = content a ∪ content b
  merged : ∀ a : S, content (merge a) = content a

/-- However the shells are shared out in two, a shell of one part shares a point with a shell of the other. -/
def Linked (content : S → Set P) (g : List S) : Prop :=
  ∀ p q : List S, g.Perm (p ++ q) → p ≠ [] → q ≠ [] → ∃ x ∈ p, ∃ y ∈ q, ¬Disjoint (content x) (content y)

/-- `s` is the union of the shells `g`, which hang together. -/
def IsGroup (content : S → Set P) (g : List S) (s : S) : Prop :=
  g ≠ [] ∧ content s = {p : P | ∃ x ∈ g, p ∈ content x} ∧ Linked content g

/-- The shells `out` are the unions of groups the list `inputs` falls into. -/
def Grouped (content : S → Set P) (inputs out : List S) : Prop :=
  ∃ gs : List (List S), List.Forall₂ (IsGroup content) gs out ∧ gs.flatten.Perm inputs

/-! ## Groups -/

theorem isGroup_single (content : S → Set P) (a : S) : IsGroup content [a] a := by
  refine ⟨by simp, by simp, ?_⟩
  intro p q hpq hp hq
  have hl := hpq.length_eq
  simp only [List.length_cons, List.length_nil, List.length_append] at hl
  have h1 := List.length_pos_of_ne_nil hp
  have h2 := List.length_pos_of_ne_nil hq
  omega

/-- Splitting a permutation of a concatenation. -/
theorem split_perm : ∀ (g l m : List S), g.Perm (l ++ m) → ∀ (p q : List S), (p ++ q).Perm g →
    ∃ p1 p2 q1 q2 : List S, p.Perm (p1 ++ p2) ∧ q.Perm (q1 ++ q2) ∧ l.Perm (p1 ++ q1) ∧ m.Perm (p2 ++ q2) := by
  intro g l m hg p q hpq
  have hperm : (p ++ q).Perm (l ++ m) := hpq.trans hg
  clear hg hpq
  induction p generalizing l m with
  | nil => exact ⟨[], [], l, m, by simp, by simpa using hperm, by simp, by simp⟩
  | cons a p ih =>
    have ha : a ∈ l ++ m := hperm.subset (by simp)
    rcases List.mem_append.1 ha with h | h
    · obtain ⟨l1, l2, rfl⟩ := List.append_of_mem h
      have h2 : (p ++ q).Perm ((l1 ++ l2) ++ m) := by
        have : (a :: (p ++ q)).Perm (a :: ((l1 ++ l2) ++ m)) := by
          refine (hperm : (a :: (p ++ q)).Perm _).trans ?_
          simp only [List.append_assoc, List.cons_append]
          exact List.perm_middle
        exact this.cons_inv
      obtain ⟨p1, p2, q1, q2, e1, e2, e3, e4⟩ := ih _ _ h2
      refine ⟨a :: p1, p2, q1, q2, e1.cons a, e2, ?_, e4⟩
      exact List.perm_middle.trans (e3.cons a)
    · obtain ⟨m1, m2, rfl⟩ := List.append_of_mem h
      have h2 : (p ++ q).Perm (l ++ (m1 ++ m2)) := by
        have : (a :: (p ++ q)).Perm (a :: (l ++ (m1 ++ m2))) := by
          refine (hperm : (a :: (p ++ q)).Perm _).trans ?_
          rw [← List.append_assoc, ← List.append_assoc]
          exact List.perm_middle
        exact this.cons_inv
      obtain ⟨p1, p2, q1, q2, e1, e2, e3, e4⟩ := ih _ _ h2
      refine ⟨p1, a :: p2, q1, q2, ?_, e2, e3, List.perm_middle.trans (e4.cons a)⟩
      exact (e1.cons a).trans List.perm_middle.symm

theorem linked_append {content : S → Set P} {l m : List S} (hl : Linked content l) (hm : Linked content m)
    (h : ∃ x ∈ l, ∃ y ∈ m, ¬Disjoint (content x) (content y)) : Linked content (l ++ m) := by
  intro p q hpq hp hq
  obtain ⟨p1, p2, q1, q2, e1, e2, e3, e4⟩ := split_perm _ l m (List.Perm.refl _) p q hpq.symm
  by_cases hpl : p1 ≠ [] ∧ q1 ≠ []
  · obtain ⟨x, hx, y, hy, hxy⟩ := hl p1 q1 e3 hpl.1 hpl.2
    exact ⟨x, e1.symm.subset (by simp [hx]), y, e2.symm.subset (by simp [hy]), hxy⟩
  by_cases hpm : p2 ≠ [] ∧ q2 ≠ []
  · obtain ⟨x, hx, y, hy, hxy⟩ := hm p2 q2 e4 hpm.1 hpm.2
    exact ⟨x, e1.symm.subset (by simp [hx]), y, e2.symm.subset (by simp [hy]), hxy⟩
  obtain ⟨x, hx, y, hy, hxy⟩ := h
  have hx' := e3.subset hx
  have hy' := e4.subset hy
  have hp' : p1 ++ p2 ≠ [] := fun h0 => hp (by rw [h0] at e1; exact e1.eq_nil)
  have hq' : q1 ++ q2 ≠ [] := fun h0 => hq (by rw [h0] at e2; exact e2.eq_nil)
  have hxy' : ¬Disjoint (content y) (content x) := fun h0 => hxy h0.symm
  by_cases h1 : p1 = []
  · subst h1
    have h2 : p2 ≠ [] := by simpa using hp'
    have h3 : q2 = [] := by
      by_contra h3
      exact hpm ⟨h2, h3⟩
    subst h3
    exact ⟨y, e1.symm.subset (by simpa using hy'), x, e2.symm.subset (by simpa using hx'), hxy'⟩
  · have h2 : q1 = [] := by
      by_contra h2
      exact hpl ⟨h1, h2⟩
    subst h2
    have h3 : q2 ≠ [] := by simpa using hq'
    have h4 : p2 = [] := by
      by_contra h4
      exact hpm ⟨h4, h3⟩
    subst h4
    exact ⟨x, e1.symm.subset (by simpa using hx'), y, e2.symm.subset (by simpa using hy'), hxy⟩

theorem isGroup_append {content : S → Set P} {l m : List S} {a b c : S} (ha : IsGroup content l a) (hb : IsGroup content m b)
    (hab : ¬Disjoint (content a) (content b)) (hc : content c = content a ∪ content b) : IsGroup content (l ++ m) c := by
  refine ⟨by simp [ha.1], ?_, ?_⟩
  · rw [hc, ha.2.1, hb.2.1]
    ext p
    constructor
    · rintro (⟨x, hx, hp⟩ | ⟨x, hx, hp⟩)
      · exact ⟨x, List.mem_append.2 (Or.inl hx), hp⟩
      · exact ⟨x, List.mem_append.2 (Or.inr hx), hp⟩
    · rintro ⟨x, hx, hp⟩
      rcases List.mem_append.1 hx with h | h
      · exact Or.inl ⟨x, h, hp⟩
      · exact Or.inr ⟨x, h, hp⟩
  · refine linked_append ha.2.2 hb.2.2 ?_
    rw [Set.not_disjoint_iff] at hab
    obtain ⟨p, hpa, hpb⟩ := hab
    rw [ha.2.1] at hpa
    rw [hb.2.1] at hpb
    obtain ⟨x, hx, hpx⟩ := hpa
    obtain ⟨y, hy, hpy⟩ := hpb
    exact ⟨x, hx, y, hy, Set.not_disjoint_iff.2 ⟨p, hpx, hpy⟩⟩

theorem Grouped.perm {content : S → Set P} {inputs out out' : List S} (h : Grouped content inputs out) (hp : out.Perm out') :
    Grouped content inputs out' := by
  obtain ⟨gs, hgs, hin⟩ := h
  obtain ⟨gs', h1, h2⟩ := List.perm_comp_forall₂ hp.symm hgs.flip
  exact ⟨gs', h1.flip, h2.flatten.trans hin⟩

theorem Grouped.join {content : S → Set P} {inputs rest : List S} {a b c : S} (h : Grouped content inputs (a :: b :: rest))
    (hab : ¬Disjoint (content a) (content b)) (hc : content c = content a ∪ content b) :
    Grouped content inputs (c :: rest) := by
  obtain ⟨gs, hgs, hin⟩ := h
  cases hgs with
  | cons h1 h2 =>
    cases h2 with
    | cons h3 h4 =>
      refine ⟨_ :: _, List.Forall₂.cons (isGroup_append h1 h3 hab hc) h4, ?_⟩
      simpa using hin

theorem grouped_self (content : S → Set P) (l : List S) : Grouped content l l := by
  refine ⟨l.map fun x : S => [x], ?_, ?_⟩
  · induction l with
    | nil => exact List.Forall₂.nil
    | cons a l ih => exact List.Forall₂.cons (isGroup_single content a) ih
  · induction l with
    | nil => simp
    | cons a l ih => simpa using ih

/-! ## The scan -/

theorem scan_spec {content : S → Set P} {union : S → S → List S} {merge : S → S} (hu : UnionSpec content union merge) (u : S)
    (move : Bool) : ∀ (l : List S) (k : Nat),
    (∃ (i : Nat) (hi : i < l.length) (c : S), scan union u move k l = .ok (.merged (k + i) c) ∧ content c = content u ∪ content l[i]
        ∧ ¬Disjoint (content u) (content l[i]))
    ∨ (∃ (a : S) (rest : List S), l = a :: rest ∧ move = true ∧ scan union u move k l = .ok (.kept k a) ∧ Disjoint (content u) (content a))
    ∨ (scan union u move k l = .ok .none ∧ (move = true → l = []) ∧ ∀ a ∈ l, Disjoint (content u) (content a)) := by
  intro l
  induction l with
  | nil => intro k; exact Or.inr (Or.inr ⟨rfl, fun _ => rfl, by simp⟩)
  | cons a rest ih =>
    intro k
    by_cases h : Disjoint (content u) (content a)
    · cases hm : move with
      | true =>
        refine Or.inr (Or.inl ⟨a, rest, rfl, rfl, ?_, h⟩)
        simp [scan, hu.apart u a h]
      | false =>
        rw [hm] at ih
        have hs : scan union u false k (a :: rest) = scan union u false (k + 1) rest := by
          simp [scan, hu.apart u a h]
        rcases ih (k + 1) with ⟨i, hi, c, h1, h2, h3⟩ | ⟨a', rest', h1, h2, _⟩ | ⟨h1, _, h3⟩
        · refine Or.inl ⟨i + 1, by simpa using hi, c, ?_, by simpa using h2, by simpa using h3⟩
          rw [hs, h1]
          congr 2
          omega
        · exact absurd h2 (by simp)
        · refine Or.inr (Or.inr ⟨by rw [hs, h1], by simp, ?_⟩)
          intro b hb
          rcases List.mem_cons.1 hb with rfl | hb
          · exact h
          · exact h3 b hb
    · obtain ⟨c, hc1, hc2⟩ := hu.joined u a h
      refine Or.inl ⟨0, by simp, c, ?_, by simpa using hc2, by simpa using h⟩
      simp [scan, hc1]

/-! ## The loop -/

/-- What holds at the start of a turn. -/
structure Inv (content : S → Set P) (inputs : List S) (st : State S) : Prop where
  grouped : Grouped content inputs (st.shells ++ (st.current ++ st.list))
  done : st.shells.Pairwise fun a b : S => Disjoint (content a) (content b)
  apart : ∀ a ∈ st.shells, ∀ b ∈ st.current ++ st.list, Disjoint (content a) (content b)
  some : st.current ≠ []
  callers : st.callers = if st.aliased then st.list else []
  phase : (∃ x : S, st.current = [x] ∧ st.list.length = st.lenPrev)
    ∨ (st.list.length + 1 = st.lenPrev ∧ ((∃ x : S, st.current = [x]) ∨ ∃ b a : S, st.current = [b, a] ∧ Disjoint (content b) (content a)))
    ∨ st.list.length + 1 < st.lenPrev

/-- What decreases. -/
def weight (st : State S) : Nat :=
  (st.current.length + st.list.length) * (st.current.length + st.list.length + 1) + st.list.length

/-- The turn gets one shell with others apart, or the list is not empty. -/
def Ready (content : S → Set P) (st : State S) : Prop :=
  st.list = [] → (st.list.length + 1 = st.lenPrev ∧ ∃ x : S, st.current = [x])

theorem refill_spec {content : S → Set P} {inputs : List S} {st : State S} (h : Inv content inputs st) :
    Inv content inputs (refill st) ∧ Ready content (refill st) ∧
      (refill st = st ∨ ((refill st).list.length + 1 = (refill st).lenPrev ∧ (∃ x : S, (refill st).current = [x]) ∧ st.list = []
        ∧ (refill st).list.length + 1 = st.current.length)) := by
  obtain ⟨shells, current, list, lenPrev, callers, aliased⟩ := st
  cases list with
  | cons a l =>
    refine ⟨h, ?_, Or.inl rfl⟩
    intro h0
    simp [refill] at h0
  | nil =>
    cases current with
    | nil => exact absurd rfl h.some
    | cons u us =>
      have hg := h.grouped
      simp only [List.append_nil] at hg
      refine ⟨⟨by simpa [refill] using hg, h.done, by simpa [refill] using h.apart, by simp [refill], ?_, ?_⟩, ?_, Or.inr ?_⟩
      · have := h.callers
        simp only [refill]
        cases aliased <;> simpa using this
      · exact Or.inr (Or.inl ⟨rfl, Or.inl ⟨u, rfl⟩⟩)
      · intro _
        exact ⟨rfl, u, rfl⟩
      · exact ⟨rfl, ⟨u, rfl⟩, rfl, rfl⟩

theorem perm_eraseIdx (l : List S) (i : Nat) (hi : i < l.length) : l.Perm (l[i] :: l.eraseIdx i) :=
  (List.getElem_cons_eraseIdx_perm hi).symm

/-- Of a turn: the invariant is kept and the weight decreases, unless the turn was the last. -/
theorem turn_spec {content : S → Set P} {union : S → S → List S} {merge : S → S} (hu : UnionSpec content union merge) {inputs : List S}
    {st : State S} (h : Inv content inputs st) (hr : Ready content st) :
    ∃ st' : State S, turn union merge st = .ok st' ∧
      ((st'.current = [] ∧ st'.list = [] ∧ st'.callers = [] ∧ Grouped content inputs st'.shells
          ∧ st'.shells.Pairwise fun a b : S => Disjoint (content a) (content b))
       ∨ (Inv content inputs st' ∧ weight st' < weight st
          ∧ (st.list.length + 1 = st.lenPrev → st'.current.length + st'.list.length < st.current.length + st.list.length))) := by
  obtain ⟨shells, current, list, lenPrev, callers, aliased⟩ := st
  cases current with
  | nil => exact absurd rfl h.some
  | cons u us =>
    have hcal := h.callers
    have hphase := h.phase
    have happ := h.apart
    have hdone := h.done
    have hgr := h.grouped
    simp only [Ready] at hr
    dsimp only at hcal hphase happ hdone hgr
    rcases scan_spec hu u (list.length + 1 != lenPrev) list 0 with ⟨i, hi, c, h1, h2, h3⟩ | ⟨a, rest, h1, h2, h3, h4⟩ | ⟨h1, h2, h3⟩
    · -- a union
      simp only [Nat.zero_add] at h1
      have hmem : list[i] ∈ list := List.getElem_mem hi
      have hmer : content (merge c) = content u ∪ content list[i] := by rw [hu.merged, h2]
      have hlen : (list.eraseIdx i).length + 1 = list.length := by
        rw [List.length_eraseIdx_of_lt hi]; omega
      refine ⟨({ shells := shells, current := merge c :: us, list := list, lenPrev := lenPrev, callers := callers, aliased := aliased } :
        State S).setList (list.eraseIdx i), by simp [turn, h1], Or.inr ⟨⟨?_, hdone, ?_, by simp [State.setList], ?_, ?_⟩, ?_, ?_⟩⟩
      · -- groups
        simp only [State.setList]
        have hp : (shells ++ ((u :: us) ++ list)).Perm (u :: list[i] :: (shells ++ (us ++ list.eraseIdx i))) := by
          have e1 : (shells ++ ((u :: us) ++ list)).Perm (u :: (shells ++ (us ++ list))) := by
            simpa using (List.perm_middle : (shells ++ u :: (us ++ list)).Perm (u :: (shells ++ (us ++ list))))
          refine e1.trans (List.Perm.cons u ?_)
          have e2 : (shells ++ (us ++ list)).Perm (shells ++ (us ++ (list[i] :: list.eraseIdx i))) :=
            ((perm_eraseIdx list i hi).append_left us).append_left shells
          refine e2.trans ?_
          rw [← List.append_assoc, ← List.append_assoc]
          exact List.perm_middle
        have hj := (hgr.perm hp).join h3 hmer
        refine hj.perm ?_
        exact List.perm_middle.symm
      · -- apart
        intro a ha b hb
        simp only [State.setList, List.cons_append, List.mem_cons, List.mem_append] at hb
        rcases hb with rfl | hb | hb
        · rw [hmer]
          exact Set.disjoint_union_right.2 ⟨happ a ha u (by simp), happ a ha _ (by simp)⟩
        · exact happ a ha b (by simp [hb])
        · exact happ a ha b (by simp [List.mem_of_mem_eraseIdx hb])
      · simp only [State.setList]
        cases aliased <;> simpa using hcal
      · -- phase
        simp only [State.setList]
        rcases hphase with ⟨x, hx, hl⟩ | ⟨hl, hx⟩ | hl
        · refine Or.inr (Or.inl ⟨by omega, Or.inl ⟨merge c, ?_⟩⟩)
          simp only [List.cons.injEq] at hx
          rw [hx.2]
        · exact Or.inr (Or.inr (by omega))
        · exact Or.inr (Or.inr (by omega))
      · simp only [weight, State.setList, List.length_cons]
        nlinarith
      · intro _
        simp only [State.setList, List.length_cons]
        omega
    · -- a shell kept apart
      subst h1
      have hne : (a :: rest).length + 1 ≠ lenPrev := by simpa using h2
      refine ⟨({ shells := shells, current := a :: u :: us, list := a :: rest, lenPrev := lenPrev, callers := callers, aliased := aliased } :
        State S).setList ((a :: rest).eraseIdx 0), by simp only [turn, h3], Or.inr ⟨⟨?_, hdone, ?_, by simp [State.setList], ?_, ?_⟩, ?_, ?_⟩⟩
      · simp only [State.setList, List.eraseIdx_cons_zero]
        refine hgr.perm (List.Perm.append_left shells ?_)
        have : ((u :: us) ++ a :: rest).Perm (a :: ((u :: us) ++ rest)) := List.perm_middle
        simpa using this
      · intro x hx b hb
        simp only [State.setList, List.eraseIdx_cons_zero, List.cons_append, List.mem_cons, List.mem_append] at hb
        refine happ x hx b ?_
        simp only [List.cons_append, List.mem_cons, List.mem_append]
        tauto
      · simp only [State.setList]
        cases aliased <;> simpa using hcal
      · simp only [State.setList, List.eraseIdx_cons_zero]
        simp only [List.length_cons] at hne hphase
        rcases hphase with ⟨x, hx, hl⟩ | ⟨hl, hx⟩ | hl
        · simp only [List.cons.injEq] at hx
          refine Or.inr (Or.inl ⟨by omega, Or.inr ⟨a, u, ?_, h4.symm⟩⟩)
          rw [hx.2]
        · omega
        · exact Or.inr (Or.inr (by omega))
      · simp only [weight, State.setList, List.length_cons, List.eraseIdx_cons_zero]
        have e : us.length + 1 + 1 + rest.length = us.length + 1 + (rest.length + 1) := by omega
        rw [e]
        omega
      · intro h0
        exact absurd h0 hne
    · -- done with this shell
      have hB : list.length + 1 = lenPrev ∧ ((∃ x : S, u :: us = [x]) ∨ ∃ b a : S, u :: us = [b, a] ∧ Disjoint (content b) (content a)) := by
        cases hl : list with
        | nil =>
          obtain ⟨e1, e2⟩ := hr hl
          rw [hl] at e1
          exact ⟨e1, Or.inl e2⟩
        | cons a rest =>
          have hlen : list.length + 1 = lenPrev := by
            by_contra hne
            have := h2 (by simpa using hne)
            rw [hl] at this
            exact absurd this (by simp)
          rw [← hl]
          rcases hphase with ⟨x, hx, hl'⟩ | h' | hl'
          · omega
          · exact h'
          · omega
      have hus : ∀ a ∈ us, Disjoint (content u) (content a) := by
        intro a ha
        rcases hB.2 with ⟨x, hx⟩ | ⟨b, a', hx, hd⟩
        · simp only [List.cons.injEq] at hx
          rw [hx.2] at ha
          simp at ha
        · simp only [List.cons.injEq] at hx
          rw [hx.2] at ha
          rw [List.mem_singleton.1 ha, hx.1]
          exact hd
      have hdone' : (shells ++ [u]).Pairwise fun a b : S => Disjoint (content a) (content b) := by
        rw [List.pairwise_append]
        exact ⟨hdone, List.pairwise_singleton _ _, fun a ha b hb => happ a ha b (by rw [List.mem_singleton.1 hb]; simp)⟩
      have happ' : ∀ a ∈ shells ++ [u], ∀ b ∈ us ++ list, Disjoint (content a) (content b) := by
        intro a ha b hb
        rcases List.mem_append.1 ha with ha | ha
        · exact happ a ha b (List.mem_cons_of_mem _ hb)
        · rw [List.mem_singleton.1 ha]
          rcases List.mem_append.1 hb with hb | hb
          · exact hus b hb
          · exact h3 b hb
      have hgr' : Grouped content inputs ((shells ++ [u]) ++ (us ++ list)) := by simpa using hgr
      cases us with
      | nil =>
        cases list with
        | nil =>
          refine ⟨⟨shells ++ [u], [], [], lenPrev, callers, aliased⟩, by simp only [turn, h1], Or.inl ⟨rfl, rfl, ?_, by simpa using hgr', hdone'⟩⟩
          cases aliased <;> simpa using hcal
        | cons b rest =>
          refine ⟨({ shells := shells ++ [u], current := [b], list := b :: rest, lenPrev := lenPrev, callers := callers, aliased := aliased } :
            State S).setList rest, by simp only [turn, h1, State.setList], Or.inr ⟨⟨?_, hdone', ?_, by simp [State.setList], ?_, ?_⟩, ?_, ?_⟩⟩
          · simpa [State.setList] using hgr'
          · simpa [State.setList] using happ'
          · simp only [State.setList]
            cases aliased <;> simpa using hcal
          · have := hB.1
            simp only [List.length_cons] at this
            exact Or.inr (Or.inr (by simp only [State.setList]; omega))
          · simp only [weight, State.setList, List.length_cons, List.length_nil]
            nlinarith
          · intro _
            simp [State.setList]
      | cons v vs =>
        refine ⟨⟨shells ++ [u], v :: vs, list, lenPrev, callers, aliased⟩, by simp [turn, h1], Or.inr ⟨⟨hgr', hdone', happ', by simp, hcal, ?_⟩, ?_, ?_⟩⟩
        · refine Or.inr (Or.inl ⟨hB.1, Or.inl ?_⟩)
          rcases hB.2 with ⟨x, hx⟩ | ⟨b, a', hx, hd⟩
          · simp at hx
          · simp only [List.cons.injEq] at hx
            exact ⟨v, by simp [hx.2]⟩
        · simp only [weight, List.length_cons]
          nlinarith
        · intro _
          simp

theorem loop_spec {content : S → Set P} {union : S → S → List S} {merge : S → S} (hu : UnionSpec content union merge) {inputs : List S} :
    ∀ (fuel : Nat) (st : State S), Inv content inputs st → weight st < fuel →
      ∃ out : List S, loop union merge fuel st = some (.ok (out, [])) ∧ Grouped content inputs out
        ∧ out.Pairwise fun a b : S => Disjoint (content a) (content b) := by
  intro fuel
  induction fuel with
  | zero => intro st _ h; omega
  | succ fuel ih =>
    intro st hinv hw
    obtain ⟨h1, h2, h3⟩ := refill_spec hinv
    obtain ⟨st', e1, e2⟩ := turn_spec hu h1 h2
    rcases e2 with ⟨c1, _, c3, c4, c5⟩ | ⟨c1, c2, c3⟩
    · exact ⟨st'.shells, by simp [loop, e1, c1, c3], c4, c5⟩
    · have hne : st'.current.isEmpty = false := by simpa using c1.some
      have hlt : weight st' < weight st := by
        rcases h3 with h3 | ⟨g1, ⟨x, g2⟩, g3, g4⟩
        · rw [h3] at c2
          exact c2
        · have g5 := c3 g1
          rw [g2] at g5
          simp only [List.length_cons, List.length_nil] at g5
          have g6 : st'.list.length ≤ st'.current.length + st'.list.length := by omega
          simp only [weight, g3, List.length_nil, Nat.add_zero]
          have g7 : st'.current.length + st'.list.length + 1 ≤ st.current.length := by omega
          generalize st'.current.length + st'.list.length = k at g6 g7 ⊢
          nlinarith
      obtain ⟨out, o1, o2, o3⟩ := ih st' c1 (by omega)
      refine ⟨out, ?_, o2, o3⟩
      rw [loop.eq_def]
      simp only [e1, hne]
      simpa using o1

/-! ## The theorem -/

/-- C177: when the union of two shells does its work, the union of a list of shells ends, whatever the shells and their number: the shells
given back share no point, each is the union of shells of the list that hang together, every shell of the list is in exactly one of them,
and the list of the caller is left empty. -/
theorem C177_union_list {content : S → Set P} {union : S → S → List S} {merge : S → S} (hu : UnionSpec content union merge)
    (inputs : List S) (hne : inputs ≠ []) (fuel : Nat) (hf : (inputs.length + 1) * (inputs.length + 1) ≤ fuel) :
    ∃ out : List S, unionList union merge fuel inputs = some (.ok (out, [])) ∧
      out.Pairwise (fun a b : S => Disjoint (content a) (content b)) ∧
      ∃ groups : List (List S), List.Forall₂ (IsGroup content) groups out ∧ groups.flatten.Perm inputs := by
  cases inputs with
  | nil => exact absurd rfl hne
  | cons a rest =>
    have hinv : Inv content (a :: rest) ⟨[], [a], rest, rest.length, rest, true⟩ :=
      ⟨by simpa using grouped_self content (a :: rest), List.Pairwise.nil, by simp, by simp, by simp, Or.inl ⟨a, rfl, rfl⟩⟩
    obtain ⟨out, o1, o2, o3⟩ := loop_spec hu fuel _ hinv (by
      simp only [weight, List.length_cons, List.length_nil] at hf ⊢
      nlinarith)
    exact ⟨out, o1, o3, o2⟩

/-- C177: the points of the shells given back are the points of the shells of the list. -/
theorem C177_points {content : S → Set P} {union : S → S → List S} {merge : S → S} (hu : UnionSpec content union merge)
    (inputs : List S) (hne : inputs ≠ []) (fuel : Nat) (hf : (inputs.length + 1) * (inputs.length + 1) ≤ fuel) :
    ∃ out : List S, unionList union merge fuel inputs = some (.ok (out, [])) ∧
      ∀ p : P, (∃ s ∈ out, p ∈ content s) ↔ ∃ s ∈ inputs, p ∈ content s := by
  obtain ⟨out, h1, h2, groups, h3, h4⟩ := C177_union_list hu inputs hne fuel hf
  refine ⟨out, h1, fun p => ?_⟩
  have : (∃ s ∈ out, p ∈ content s) ↔ ∃ s ∈ groups.flatten, p ∈ content s := by
    clear h1 h2 h4
    induction h3 with
    | nil => simp
    | cons ha _ ih =>
      simp only [List.mem_cons, List.flatten_cons, List.mem_append, or_and_right, exists_or, exists_eq_left]
      rw [ih, ha.2.1]
      simp
  rw [this]
  constructor
  · rintro ⟨s, hs, hp⟩
    exact ⟨s, h4.subset hs, hp⟩
  · rintro ⟨s, hs, hp⟩
    exact ⟨s, h4.symm.subset hs, hp⟩

/-- C177: an empty list is refused. -/
theorem C177_empty (union : S → S → List S) (merge : S → S) (fuel : Nat) :
    unionList union merge fuel [] = some (.error .indexError) := rfl

open Classical in
/-- The union of sets of numbers, as an example of a union that does its work. -/
noncomputable def setUnion (a b : Set Nat) : List (Set Nat) := if Disjoint a b then [a, b] else [a ∪ b]

theorem spec_of_sets : UnionSpec (S := Set Nat) (P := Nat) id setUnion id := by
  classical
  refine ⟨fun a b h => ?_, fun a b h => ⟨a ∪ b, ?_, rfl⟩, fun _ => rfl⟩
  · exact if_pos h
  · exact if_neg h

/-- The hypotheses of C177 are met: sets of numbers with their union. -/
example : ∃ out : List (Set Nat), unionList setUnion id 100 [{1, 2}, {4}, {2, 3}, {5}] = some (.ok (out, [])) ∧
    out.Pairwise (fun a b : Set Nat => Disjoint a b) :=
  let ⟨out, h1, h2, _⟩ := C177_union_list spec_of_sets [{1, 2}, {4}, {2, 3}, {5}] (by simp) 100 (by simp)
  ⟨out, h1, h2⟩

/-- A run: intervals as pairs of ends, the union of two that meet. -/
example : (unionList (fun a b : Nat × Nat => if a.2 < b.1 ∨ b.2 < a.1 then [a, b] else [(min a.1 b.1, max a.2 b.2)]) id 100
    [(0, 1), (4, 5), (9, 9), (1, 2), (2, 4)]).map (fun r => r.toOption) = some (some ([(9, 9), (0, 5)], [])) := by decide +kernel

end Volmdlr.SetOps
