import Verif.Proofs.PyLex

/-!
C73: the text that Verse makes of an expression is read by Python as this expression.
-/

set_option autoImplicit false

namespace Verif.Props

open Verif.Spec.PyText
open Verif.Unparse

/-! ### Examples -/

private def tx (s : String) : Text := s.toList

private theorem nm_x : Name ['x'] := ⟨⟨'x', [], rfl, by decide, by decide⟩, by decide +kernel⟩
private theorem nm_ego : Name ['e', 'g', 'o'] := ⟨⟨'e', ['g', 'o'], rfl, by decide, by decide⟩, by decide +kernel⟩
private theorem nm_f : Name ['f'] := ⟨⟨'f', [], rfl, by decide, by decide⟩, by decide +kernel⟩
private theorem n_one : Number ['1'] := ⟨['1'], [], [], rfl, by decide, by decide, Or.inl rfl, Or.inl rfl⟩
private theorem n_two : Number ['2'] := ⟨['2'], [], [], rfl, by decide, by decide, Or.inl rfl, Or.inl rfl⟩
private theorem n_small : Number ['2', '.', '5', 'e', '-', '0', '7'] :=
  ⟨['2'], ['.', '5'], ['e', '-', '0', '7'], rfl, by decide, by decide, Or.inr ⟨['5'], rfl, by decide⟩,
    Or.inr ⟨['-'], ['0', '7'], rfl, Or.inr (Or.inr rfl), by decide, by decide⟩⟩

/-- `ego.x` -/
private def exEgo : Expr := .attr (.name ['e', 'g', 'o']) ['x']
private theorem wf_ego : WF exEgo := .attr (.name nm_ego) (fun h => nomatch h) nm_x

/-- `f(ego.x - 1 - 2, -1) ** 2 < 2.5e-07 and not (x if ego.x == 'x' else -2)`, as a syntax tree -/
private def exBig (neg : Expr) : Expr :=
  .bool .and [.cmp (.pow (.call (.name ['f']) [.bin .sub (.bin .sub exEgo (.num false ['1'])) (.num false ['2']), neg]) (.num false ['2']))
      [(.lt, .num false ['2', '.', '5', 'e', '-', '0', '7'])],
    .un .not (.ite (.cmp exEgo [(.eq, .str ['x'])]) (.name ['x']) (.un .usub (.num false ['2'])))]

private theorem wf_big {neg : Expr} (h : WF neg) : WF (exBig neg) := by
  refine .bool (by simp) ?_
  intro e he
  simp only [List.mem_cons, List.not_mem_nil, or_false] at he
  rcases he with rfl | rfl
  · refine .cmp (.pow (.call (.name nm_f) (fun h => nomatch h) ?_) (fun h => nomatch h) (.num n_two)) (by simp) ?_
    · intro e he
      simp only [List.mem_cons, List.not_mem_nil, or_false] at he
      rcases he with rfl | rfl
      · exact .bin (.bin wf_ego (.num n_one)) (.num n_two)
      · exact h
    · intro p hp
      simp only [List.mem_cons, List.not_mem_nil, or_false] at hp
      subst hp
      exact .num n_small
  · refine .un (.ite (.cmp wf_ego (by simp) ?_) (.name nm_x) (.un (.num n_two)))
    intro p hp
    simp only [List.mem_cons, List.not_mem_nil, or_false] at hp
    subst hp
    exact .str (by intro c hc; simp at hc; subst hc; decide)

/-! ### The properties -/

/-- Python reads the text of a well-formed expression, and reads it as this expression and no other, with an operator `-` in place of negative
numbers. -/
theorem C73_text_partial {e : Expr} (h : WF e) (e' : Expr) : Denotes (unparse e) e' ↔ e' = signs e :=
  ⟨fun hd => denotes_det (denotes_unparse h) hd, fun he => he ▸ denotes_unparse h⟩

-- with a negative number among the arguments
example : WF (exBig (.num true ['1'])) := wf_big (.num n_one)
example : signs (exBig (.num true ['1'])) = exBig (.un .usub (.num false ['1'])) := by
  simp [exBig, exEgo, signs, signsList, signsPairs]
example : unparse (exBig (.num true ['1'])) = "(((f(((ego.x - 1) - 2), -1) ** 2) < 2.5e-07) and (not (x if (ego.x == 'x') else (- 2))))".toList := by
  decide +kernel

/-- For expressions without negative numbers, such as those that Python has read: the text is read as exactly this expression. -/
theorem C73_same_partial {e : Expr} (h : WF e) (hu : Unsigned e) (e' : Expr) : Denotes (unparse e) e' ↔ e' = e := by
  rw [C73_text_partial h, hu]

example : WF (exBig (.un .usub (.num false ['1']))) ∧ Unsigned (exBig (.un .usub (.num false ['1']))) :=
  ⟨wf_big (.un (.num n_one)), by simp [Unsigned, exBig, exEgo, signs, signsList, signsPairs]⟩

/-- Reset expressions are compared by text: two of them are equal exactly if they assign the same expression to the same variable. -/
theorem C73_reset_eq_partial {v v' : Text} {e e' : Expr} (h : WF e) (hu : Unsigned e) (h' : WF e') (hu' : Unsigned e') :
    (ResetExpression.mk' v e).eq (ResetExpression.mk' v' e') = true ↔ v = v' ∧ e = e' := by
  unfold ResetExpression.eq ResetExpression.mk'
  simp only [Bool.and_eq_true, beq_iff_eq]
  constructor
  · rintro ⟨h1, h2⟩
    refine ⟨h1, ?_⟩
    have hd : Denotes (unparse e') e := h2 ▸ (C73_same_partial h hu e).2 rfl
    exact (C73_same_partial h' hu' e).1 hd
  · rintro ⟨rfl, rfl⟩
    exact ⟨rfl, rfl⟩

-- `ego.x - (1 - 2)` and `(ego.x - 1) - 2` are different
example : (ResetExpression.mk' ['x'] (.bin .sub exEgo (.bin .sub (.num false ['1']) (.num false ['2'])))).eq
    (ResetExpression.mk' ['x'] (.bin .sub (.bin .sub exEgo (.num false ['1'])) (.num false ['2']))) = false := by decide +kernel

/-- A negative number as the base of a power is printed without parentheses: Python reads the text of the square of -1 as the negation of the square of 1. -/
theorem C73_negative_violated :
    unparse (.pow (.num true ['1']) (.num false ['2'])) = "(-1 ** 2)".toList ∧
    Denotes "(-1 ** 2)".toList (.un .usub (.pow (.num false ['1']) (.num false ['2']))) ∧
    ∀ e, Denotes (unparse (.pow (.num true ['1']) (.num false ['2']))) e → e ≠ signs (.pow (.num true ['1']) (.num false ['2'])) := by
  have h0 : unparse (.pow (.num true ['1']) (.num false ['2'])) = "(-1 ** 2)".toList := by decide +kernel
  have h1 : Denotes "(-1 ** 2)".toList (.un .usub (.pow (.num false ['1']) (.num false ['2']))) := by
    refine ⟨[.lpar, .op .sub, .num ['1'], .pow, .num ['2'], .rpar], ⟨10, by decide +kernel⟩, ?_⟩
    have fac : ∀ r : List Tok, Reads .factor (.num ['2'] :: .rpar :: r) (.one (.num false ['2'])) (.rpar :: r) := fun r =>
      .factor nofun nofun nofun (.power (.primary .num (.trailStop nofun nofun nofun)) nofun)
    have inner : Reads .factor [.op .sub, .num ['1'], .pow, .num ['2'], .rpar] (.one (.un .usub (.pow (.num false ['1']) (.num false ['2'])))) [.rpar] :=
      .minus (.factor nofun nofun nofun (.powerMore (.primary .num (.trailStop nofun nofun nofun)) (fac [])))
    have grp := factor_expr inner (by simp [kwNot]) (closing_rpar [])
    exact factor_expr (.factor nofun nofun nofun (.power (.primary (.group grp) (.trailStop nofun nofun nofun)) nofun)) (by simp [kwNot]) (Or.inl rfl)
  refine ⟨h0, h1, fun e he => ?_⟩
  rw [h0] at he
  have := denotes_det h1 he
  subst this
  simp [signs]

end Verif.Props
