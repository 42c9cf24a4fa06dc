import Verif.Spec.FixedPoint
import Verif.Proofs.Basic
import Verif.Proofs.ATree

/-! Lemmas about the collection of rectangles and the formulas of the fixed-point test. -/

set_option autoImplicit false
set_option linter.unusedSectionVars false

namespace Verif.Proofs.Fix

open Verif.Spec Verif.Fix Verif.Fix.Spec Verif.ATree

section lists
variable {α β : Type}

def flat (P : List (α × α)) : List α := P.flatMap (fun p => [p.1, p.2])

theorem flat_cons (p : α × α) (P : List (α × α)) : flat (p :: P) = p.1 :: p.2 :: flat P := rfl

theorem flat_append (P Q : List (α × α)) : flat (P ++ Q) = flat P ++ flat Q := List.flatMap_append

theorem flat_length (P : List (α × α)) : (flat P).length = 2 * P.length := by
  induction P with
  | nil => rfl
  | cons p P ih => rw [flat_cons]; simp [ih]; omega

theorem pairs_flat (P : List (α × α)) : pairs (flat P) = P := by
  induction P with
  | nil => rfl
  | cons p P ih => rw [flat_cons, pairs, ih]

theorem flat_pairs : ∀ (l : List α), 2 ∣ l.length → flat (pairs l) = l
  | [], _ => rfl
  | [a], h => by simp at h
  | a :: b :: l, h => by
    rw [pairs, flat_cons, flat_pairs l]
    simp only [List.length_cons] at h
    omega

theorem flat_get : ∀ (P : List (α × α)) (i : Nat), (flat P)[2 * i]? = (P[i]?).map Prod.fst ∧ (flat P)[2 * i + 1]? = (P[i]?).map Prod.snd
  | [], i => by simp [flat]
  | p :: P, 0 => by simp [flat_cons]
  | p :: P, i + 1 => by
    obtain ⟨h1, h2⟩ := flat_get P i
    rw [flat_cons]
    refine ⟨?_, ?_⟩
    · rw [show 2 * (i + 1) = 2 * i + 1 + 1 from by omega]; simpa using h1
    · rw [show 2 * (i + 1) + 1 = (2 * i + 1) + 1 + 1 from by omega]; simpa using h2

theorem pyRange_even : ∀ (m : Nat), pyRange (2 * m) 2 = (List.range m).map (fun i => 2 * i)
  | 0 => rfl
  | m + 1 => by
    have ih := pyRange_even m
    unfold pyRange at ih ⊢
    rw [show 2 * (m + 1) = 2 * m + 1 + 1 from by omega, List.range_succ, List.range_succ, List.filter_append, List.filter_append, ih, List.range_succ]
    simp

theorem pyRange_odd : ∀ (m : Nat), pyRange (2 * m - 1) 2 = (List.range m).map (fun i => 2 * i)
  | 0 => rfl
  | m + 1 => by
    have ih := pyRange_even m
    unfold pyRange at ih ⊢
    rw [show 2 * (m + 1) - 1 = 2 * m + 1 from by omega, List.range_succ, List.filter_append, ih, List.range_succ]
    simp

theorem map_range_get (P : List α) (f : Option α → β) (g : α → β) (h : ∀ a, f (some a) = g a) : (List.range P.length).map (fun i => f P[i]?) = P.map g := by
  apply List.ext_getElem
  · simp
  · intro i h1 h2
    simp at h1 h2
    simp [h, h1]

/-- Splitting a pointwise relation along a concatenation. -/
theorem forall₂_flatMap {γ : Type} {R : β → γ → Prop} (f : α → List β) : ∀ (l : List α) (y : List γ),
    List.Forall₂ R (l.flatMap f) y ↔ ∃ ys : List (List γ), y = ys.flatten ∧ List.Forall₂ (fun a ya => List.Forall₂ R (f a) ya) l ys
  | [], y => by
    constructor
    · intro h; cases h; exact ⟨[], rfl, .nil⟩
    · rintro ⟨ys, rfl, h⟩; cases h; exact .nil
  | a :: l, y => by
    rw [List.flatMap_cons]
    constructor
    · intro h
      obtain ⟨y1, y2, h1, h2, rfl⟩ : ∃ y1 y2, List.Forall₂ R (f a) y1 ∧ List.Forall₂ R (l.flatMap f) y2 ∧ y = y1 ++ y2 := by
        refine ⟨y.take (f a).length, y.drop (f a).length, ?_, ?_, (List.take_append_drop _ _).symm⟩
        · have := List.forall₂_take (f a).length h
          rwa [List.take_left'] at this; rfl
        · have := List.forall₂_drop (f a).length h
          rwa [List.drop_left'] at this; rfl
      obtain ⟨ys, rfl, h3⟩ := (forall₂_flatMap f l y2).1 h2
      exact ⟨y1 :: ys, rfl, .cons h1 h3⟩
    · rintro ⟨ys, rfl, h⟩
      cases h with
      | cons h1 h2 => exact List.rel_append h1 ((forall₂_flatMap f l _).2 ⟨_, rfl, h2⟩)

end lists

variable {K : Type} [Field K] [LinearOrder K]

/-- The loop on rectangles, without indices. -/
def wl (lo hi : K) : List (Row K × Row K) → List (Row K × Row K)
  | [] => []
  | p :: ps => if p.1.1 < lo then wl lo hi ps else if hi < p.2.1 then [] else p :: wl lo hi ps

theorem windowLoop_eq (lo hi : K) (P : List (Row K × Row K)) : ∀ (is : List Nat) (Q : List (Row K × Row K)), is.map (fun i => P[i]?) = Q.map some →
    windowLoop lo hi (flat P) (is.map (fun i => 2 * i)) = .ok (wl lo hi Q)
  | [], Q, h => by
    cases Q with
    | nil => rfl
    | cons => simp at h
  | i :: is, [], h => by simp at h
  | i :: is, p :: Q, h => by
    simp only [List.map_cons, List.cons.injEq] at h
    have ih := windowLoop_eq lo hi P is Q h.2
    obtain ⟨h1, h2⟩ := flat_get P i
    rw [h.1] at h1 h2
    rw [List.map_cons, windowLoop, h1, h2]
    simp only [Option.map_some]
    rw [ih, wl]
    split
    · rfl
    · split <;> rfl

def selW (lo hi : K) (P : List (Row K × Row K)) : List (Row K × Row K) := P.filter (fun p => decide (lo ≤ p.1.1 ∧ p.2.1 ≤ hi))

theorem wl_eq (lo hi : K) : ∀ (P : List (Row K × Row K)), P.Pairwise (fun p q => p.1.1 ≤ q.1.1 ∧ p.2.1 ≤ q.2.1) → wl lo hi P = selW lo hi P
  | [], _ => rfl
  | p :: P, h => by
    rw [List.pairwise_cons] at h
    have ih := wl_eq lo hi P h.2
    unfold selW at ih ⊢
    rw [wl, List.filter_cons]
    by_cases h1 : p.1.1 < lo
    · rw [if_pos h1, if_neg, ih]
      simp [not_le.2 h1]
    · rw [if_neg h1]
      by_cases h2 : hi < p.2.1
      · rw [if_pos h2, if_neg (by simp [h2]), eq_comm, List.filter_eq_nil_iff]
        intro q hq
        simp only [decide_eq_true_eq, not_and, not_le]
        intro _
        exact lt_of_lt_of_le h2 (h.1 q hq).2
      · rw [if_neg h2, if_pos (by simp only [decide_eq_true_eq]; exact ⟨not_lt.1 h1, not_lt.1 h2⟩), ih]

theorem window_eq (lo hi : K) (P : List (Row K × Row K)) (hne : P ≠ []) (ht : ∀ p ∈ P, p.1.1 < p.2.1)
    (hp : P.Pairwise (fun p q => p.1.1 ≤ q.1.1 ∧ p.2.1 ≤ q.2.1)) : window lo hi (flat P) = .ok (selW lo hi P) := by
  cases P with
  | nil => exact absurd rfl hne
  | cons p P =>
    unfold window
    rw [show (flat (p :: P))[0]? = some p.1 from rfl, show (flat (p :: P))[1]? = some p.2 from rfl]
    simp only
    rw [if_neg (ht p (by simp)).ne, flat_length, pyRange_odd, windowLoop_eq lo hi (p :: P) _ (p :: P), wl_eq lo hi _ hp]
    exact map_range_get (p :: P) (fun o => o) some (fun _ => rfl)

def selL (T : K) (P : List (Row K × Row K)) : List (Row K × Row K) := P.getLast?.toList.filter (fun p => decide (p.2.1 = T))

theorem lastRect_eq (T : K) (P : List (Row K × Row K)) (hne : P ≠ []) : lastRect T (flat P) = .ok (selL T P) := by
  obtain ⟨Q, r, rfl⟩ := List.eq_nil_or_concat P |>.resolve_left hne
  rw [List.concat_eq_append] at hne ⊢
  have h1 : pyIdx (flat (Q ++ [r])) (-1) = some r.2 := by
    rw [flat_append]
    unfold pyIdx
    rw [if_neg (by omega), if_pos (by simp [flat_cons]; omega)]
    rw [show (((flat Q ++ flat [r]).length : Int) + -1).toNat = (flat Q).length + 1 from by rw [List.length_append, flat_length, flat_length]; simp; omega]
    simp [flat]
  have h2 : pyIdx (flat (Q ++ [r])) (-2) = some r.1 := by
    rw [flat_append]
    unfold pyIdx
    rw [if_neg (by omega), if_pos (by rw [List.length_append, flat_length, flat_length]; simp)]
    rw [show (((flat Q ++ flat [r]).length : Int) + -2).toNat = (flat Q).length from by rw [List.length_append, flat_length, flat_length]; simp; omega]
    simp [flat]
  unfold lastRect selL
  rw [h1]
  simp only [List.getLast?_append, List.getLast?_singleton, Option.some_or, Option.toList_some, List.filter_cons, List.filter_nil, decide_eq_true_eq]
  split
  · rw [h2]
  · rfl

/-- The rectangles selected from the tube of an agent. -/
def selP : Sel K → List (Row K × Row K) → List (Row K × Row K)
  | .window lo hi, P => selW lo hi P
  | .last T, P => selL T P

theorem select_eq {sel : Sel K} {trace : Dict String (List (Row K))} {a : String} {rows : List (Row K)} (h : Dict.get? trace a = some rows)
    (h2 : 2 ≤ rows.length) (hd : 2 ∣ rows.length) (ht : ∀ p ∈ pairs rows, p.1.1 < p.2.1)
    (hp : (pairs rows).Pairwise (fun p q => p.1.1 ≤ q.1.1 ∧ p.2.1 ≤ q.2.1)) : select sel trace a = .ok (selP sel (pairs rows)) := by
  have hne : pairs rows ≠ [] := by
    cases rows with
    | nil => simp at h2
    | cons x rows => cases rows with
      | nil => simp at h2
      | cons y rows => simp [pairs]
  unfold select
  rw [h]
  cases sel with
  | window lo hi =>
    have := window_eq lo hi (pairs rows) hne ht hp
    rwa [flat_pairs rows hd] at this
  | last T =>
    have := lastRect_eq T (pairs rows) hne
    rwa [flat_pairs rows hd] at this

theorem selP_map {sel : Sel K} {P Q : List (Row K × Row K)} (h : P.map (fun r => (r.1.1, r.2.1)) = Q.map (fun r => (r.1.1, r.2.1))) :
    (selP sel P).length = (selP sel Q).length := by
  have key : ∀ (p : K × K → Bool) (P Q : List (Row K × Row K)), P.map (fun r => (r.1.1, r.2.1)) = Q.map (fun r => (r.1.1, r.2.1)) →
      (P.filter (fun r => p (r.1.1, r.2.1))).length = (Q.filter (fun r => p (r.1.1, r.2.1))).length := by
    intro p P Q h
    have e : ∀ P : List (Row K × Row K), (P.filter (fun r => p (r.1.1, r.2.1))).length = ((P.map (fun r => (r.1.1, r.2.1))).filter p).length := by
      intro P; rw [List.filter_map, List.length_map]; rfl
    rw [e, e, h]
  cases sel with
  | window lo hi => exact key (fun t => decide (lo ≤ t.1 ∧ t.2 ≤ hi)) P Q h
  | last T =>
    refine key (fun t => decide (t.2 = T)) P.getLast?.toList Q.getLast?.toList ?_
    have : (P.map (fun r => (r.1.1, r.2.1))).getLast?.toList = (Q.map (fun r => (r.1.1, r.2.1))).getLast?.toList := by rw [h]
    rw [List.getLast?_map, List.getLast?_map] at this
    cases hP : P.getLast? <;> cases hQ : Q.getLast? <;> rw [hP, hQ] at this <;> (simp at this ⊢; try exact this)

end Verif.Proofs.Fix
