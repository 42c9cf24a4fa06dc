import Verif.Spec.Classes
import Verif.Proofs.Basic

set_option autoImplicit false

namespace Verif.Classes
open Verif Verif.Classes.Spec

theorem grabNames_iff (body : List Member) (names : List String) : grabNames body = .ok names ↔ (∀ m ∈ body, Simple m) ∧ ∃ ps, Vars body ps ∧ names = ps.map Prod.fst := by
  induction body generalizing names with
  | nil =>
    simp only [grabNames, Except.ok.injEq, List.not_mem_nil, false_implies, implies_true, true_and]
    constructor
    · rintro rfl; exact ⟨[], .nil, rfl⟩
    · rintro ⟨ps, h, rfl⟩; cases h; rfl
  | cons m l ih =>
    cases m with
    | assign t more =>
      cases more with
      | true => simp [grabNames, Simple]
      | false =>
        cases t with
        | other => simp [grabNames, Simple]
        | name s =>
          simp only [grabNames, Bool.false_eq_true, if_false, map_ok_iff, ih, List.forall_mem_cons]
          constructor
          · rintro ⟨ns, ⟨h1, ps, h2, rfl⟩, rfl⟩
            exact ⟨⟨⟨rfl, s, rfl⟩, h1⟩, (s, none) :: ps, .var ⟨rfl, rfl⟩ h2, rfl⟩
          · rintro ⟨⟨-, h1⟩, ps, h2, rfl⟩
            cases h2 with
            | var hd h2 =>
              obtain ⟨e, -⟩ := hd
              injection e with e
              exact ⟨_, ⟨h1, _, h2, rfl⟩, by rw [List.map_cons, e]⟩
    | ann t typ v =>
      cases t with
      | other => simp [grabNames, Simple]
      | name s =>
        simp only [grabNames, map_ok_iff, ih, List.forall_mem_cons]
        constructor
        · rintro ⟨ns, ⟨h1, ps, h2, rfl⟩, rfl⟩
          exact ⟨⟨⟨s, rfl⟩, h1⟩, (s, typ) :: ps, .var ⟨rfl, rfl⟩ h2, rfl⟩
        · rintro ⟨⟨-, h1⟩, ps, h2, rfl⟩
          cases h2 with
          | var hd h2 =>
            obtain ⟨e, -⟩ := hd
            injection e with e
            exact ⟨_, ⟨h1, _, h2, rfl⟩, by rw [List.map_cons, e]⟩
    | other =>
      simp only [grabNames, ih, List.forall_mem_cons, Simple, true_and]
      refine and_congr_right fun _ => ⟨?_, ?_⟩
      · rintro ⟨ps, h, rfl⟩; exact ⟨ps, .skip h, rfl⟩
      · rintro ⟨ps, h, rfl⟩
        cases h with
        | var hd _ => exact hd.elim
        | skip h => exact ⟨ps, h, rfl⟩

theorem vars_unique {body : List Member} {ps qs : List (String × Option String)} (h : Vars body ps) (h' : Vars body qs) : ps = qs := by
  induction h generalizing qs with
  | nil => cases h'; rfl
  | @var m l p ps hd h ih =>
    cases h' with
    | var hd' h' =>
      rename_i q qs
      rw [ih h']
      congr 1
      cases m with
      | assign t more =>
        obtain ⟨h1, h2⟩ := hd; obtain ⟨g1, g2⟩ := hd'
        rw [h1] at g1; injection g1 with g1
        exact Prod.ext g1 (h2.trans g2.symm)
      | ann t typ v =>
        obtain ⟨h1, h2⟩ := hd; obtain ⟨g1, g2⟩ := hd'
        rw [h1] at g1; injection g1 with g1
        exact Prod.ext g1 (h2.trans g2.symm)
      | other => exact hd.elim
    | skip h' => exact hd.elim
  | skip h ih =>
    cases h' with
    | var hd _ => exact hd.elim
    | skip h' => exact ih h'

theorem vars_exists {body : List Member} (h : ∀ m ∈ body, Simple m) : ∃ ps, Vars body ps := by
  induction body with
  | nil => exact ⟨[], .nil⟩
  | cons m l ih =>
    rw [List.forall_mem_cons] at h
    obtain ⟨ps, hp⟩ := ih h.2
    cases m with
    | assign t more => obtain ⟨-, s, hs⟩ := h.1; exact ⟨(s, none) :: ps, .var ⟨hs, rfl⟩ hp⟩
    | ann t typ v => obtain ⟨s, hs⟩ := h.1; exact ⟨(s, typ) :: ps, .var ⟨hs, rfl⟩ hp⟩
    | other => exact ⟨ps, .skip hp⟩

theorem grabAnnotates_vars {body : List Member} {ps : List (String × Option String)} (h : Vars body ps) (as : List (Option String)) :
    grabAnnotates body = .ok as ↔ (∀ m ∈ body, Typed m) ∧ as = ps.map Prod.snd := by
  induction h generalizing as with
  | nil => simp [grabAnnotates, eq_comm]
  | @var m l p ps hd h ih =>
    cases m with
    | assign t more =>
      simp only [grabAnnotates, map_ok_iff, ih, List.forall_mem_cons, Typed, true_and, List.map_cons]
      rw [hd.2]
      constructor
      · rintro ⟨as, ⟨h1, rfl⟩, rfl⟩; exact ⟨h1, rfl⟩
      · rintro ⟨h1, rfl⟩; exact ⟨_, ⟨h1, rfl⟩, rfl⟩
    | ann t typ v =>
      cases typ with
      | none => simp [grabAnnotates, Typed]
      | some s =>
        simp only [grabAnnotates, map_ok_iff, ih, List.forall_mem_cons, Typed, List.map_cons]
        rw [hd.2]
        constructor
        · rintro ⟨as, ⟨h1, rfl⟩, rfl⟩; exact ⟨⟨⟨s, rfl⟩, h1⟩, rfl⟩
        · rintro ⟨⟨-, h1⟩, rfl⟩; exact ⟨_, ⟨h1, rfl⟩, rfl⟩
    | other => exact hd.elim
  | skip h ih => simp only [grabAnnotates, ih, List.forall_mem_cons, Typed, true_and]

/-- The variables of one kind as a filter. -/
theorem of_iff (k : Kind) (l m : List (String × Option String)) : Of k l m ↔ m = by classical exact l.filter (fun p => KindOf p.1 k) := by
  classical
  constructor
  · intro h
    induction h with
    | nil => rfl
    | take hk _ ih => rw [List.filter_cons_of_pos (by simpa using hk), ← ih]
    | drop hk _ ih => rw [List.filter_cons_of_neg (by simpa using hk), ← ih]
  · rintro rfl
    induction l with
    | nil => exact .nil
    | cons p l ih =>
      by_cases hk : KindOf p.1 k
      · rw [List.filter_cons_of_pos (by simpa using hk)]; exact .take hk ih
      · rw [List.filter_cons_of_neg (by simpa using hk)]; exact .drop hk ih

theorem of_unique {k : Kind} {l m n : List (String × Option String)} (h : Of k l m) (h' : Of k l n) : m = n :=
  ((of_iff k l m).1 h).trans ((of_iff k l n).1 h').symm

theorem of_exists (k : Kind) (l : List (String × Option String)) : ∃ m, Of k l m := ⟨_, (of_iff k l _).2 rfl⟩

theorem classify_spec (as : List (Option String)) : ∀ (ps : List (String × Option String)) (i : Nat) (d : StateDef) (c e s : List (String × Option String)),
    as.drop i = ps.map Prod.snd → Of .cont ps c → Of .disc ps e → Of .static ps s →
    classify as i (ps.map Prod.fst) d = .ok ⟨d.cont ++ c.map Prod.fst, d.disc ++ e.map Prod.fst, d.discType ++ e.map Prod.snd, d.static ++ s.map Prod.fst, d.staticType ++ s.map Prod.snd⟩ := by
  intro ps
  induction ps with
  | nil =>
    intro i d c e s _ hc he hs
    cases hc; cases he; cases hs
    simp [classify]
  | cons p ps ih =>
    intro i d c e s ha hc he hs
    have hi : as[i]? = some p.2 := by
      have h := congrArg List.head? ha
      rw [List.head?_drop] at h
      simpa using h
    have hr : as.drop (i + 1) = ps.map Prod.snd := by
      have h := congrArg List.tail ha
      rw [List.tail_drop] at h
      simpa using h
    simp only [List.map_cons, classify]
    by_cases ht : "type" = p.1
    · rw [if_pos ht, hi]
      cases hs with
      | drop hk _ => exact absurd ht.symm hk
      | take _ hs =>
        cases hc with
        | take hk _ => exact absurd ht.symm hk.1
        | drop _ hc =>
          cases he with
          | take hk _ => exact absurd ht.symm hk.1
          | drop _ he =>
            simp only
            rw [ih (i + 1) _ _ _ _ hr hc he hs]
            simp
    · rw [if_neg ht]
      cases hs with
      | take hk _ => exact absurd hk.symm ht
      | drop _ hs =>
        by_cases hm : "mode".toList <:+: p.1.toList
        · rw [if_neg (by simpa using hm), hi]
          cases hc with
          | take hk _ => exact absurd hm hk.2
          | drop _ hc =>
            cases he with
            | drop hk _ => exact absurd ⟨fun e => ht e.symm, hm⟩ hk
            | take _ he =>
              simp only
              rw [ih (i + 1) _ _ _ _ hr hc he hs]
              simp
        · rw [if_pos hm]
          cases hc with
          | drop hk _ => exact absurd ⟨fun e => ht e.symm, hm⟩ hk
          | take _ hc =>
            cases he with
            | take hk _ => exact absurd hk.2 hm
            | drop _ he =>
              rw [ih (i + 1) _ _ _ _ hr hc he hs]
              simp

theorem stateDef_iff (body : List Member) (d : StateDef) : stateDef body = .ok d ↔ (∀ m ∈ body, Simple m ∧ Typed m) ∧ ∃ ps c e s, Vars body ps ∧
    Of .cont ps c ∧ Of .disc ps e ∧ Of .static ps s ∧ d = ⟨c.map Prod.fst, e.map Prod.fst, e.map Prod.snd, s.map Prod.fst, s.map Prod.snd⟩ := by
  unfold stateDef
  constructor
  · intro h
    obtain ⟨names, hn, h⟩ := (bind_ok_iff _ _ _).1 h
    obtain ⟨as, ha, h⟩ := (bind_ok_iff _ _ _).1 h
    obtain ⟨hs, ps, hv, rfl⟩ := (grabNames_iff _ _).1 hn
    obtain ⟨ht, rfl⟩ := (grabAnnotates_vars hv _).1 ha
    obtain ⟨c, hc⟩ := of_exists .cont ps
    obtain ⟨e, he⟩ := of_exists .disc ps
    obtain ⟨s, hs'⟩ := of_exists .static ps
    rw [classify_spec _ ps 0 {} c e s rfl hc he hs'] at h
    injection h with h
    exact ⟨fun m hm => ⟨hs m hm, ht m hm⟩, ps, c, e, s, hv, hc, he, hs', by simpa using h.symm⟩
  · rintro ⟨hst, ps, c, e, s, hv, hc, he, hs, rfl⟩
    rw [(grabNames_iff body (ps.map Prod.fst)).2 ⟨fun m hm => (hst m hm).1, ps, hv, rfl⟩]
    simp only [Except.bind]
    rw [(grabAnnotates_vars hv (ps.map Prod.snd)).2 ⟨fun m hm => (hst m hm).2, rfl⟩]
    simp only
    rw [classify_spec _ ps 0 {} c e s rfl hc he hs]
    simp

end Verif.Classes
