import Verif.Proofs.IrText

/-!
C107: symbolic values are compared by their text. For the values that the parser builds this is equality, with two exceptions; merging the branches of an
`if` is correct where it is.
-/

set_option autoImplicit false

namespace Verif.Props

open Verif.Spec.IrText Verif.Spec.PyText
open Verif.IrText
open Verif.Unparse (Text Expr)

/-! ### Examples -/

private theorem nm_ego : Name ['e', 'g', 'o'] := ⟨⟨'e', ['g', 'o'], rfl, by decide, by decide⟩, by decide +kernel⟩
private theorem nm_x : Name ['x'] := ⟨⟨'x', [], rfl, by decide, by decide⟩, by decide +kernel⟩
private theorem nm_o : Name ['o'] := ⟨⟨'o', [], rfl, by decide, by decide⟩, by decide +kernel⟩
private theorem n_1 : Number ['1'] := ⟨['1'], [], [], rfl, by decide, by decide, Or.inl rfl, Or.inl rfl⟩

/-- `ego.x` -/
private def egoX : Expr := .attr (.name ['e', 'g', 'o']) ['x']
/-- `ego.x > o.x` -/
private def ahead : Expr := .cmp egoX [(.gt, .attr (.name ['o']) ['x'])]
/-- `1` -/
private def one : Expr := .num false ['1']
/-- `any(ego.x > o.x for o in x)` -/
private def anyAhead : Leaf := .red .any ahead ['o'] (.name ['x'])
/-- `None` -/
private def noneE : Expr := .name ['N', 'o', 'n', 'e']

private theorem src_egoX : Source egoX := ⟨.attr (.name nm_ego) (fun h => nomatch h) nm_x, by simp [Unsigned, egoX, signs]⟩
private theorem src_one : Source one := ⟨.num n_1, by simp [Unsigned, one, signs]⟩
private theorem src_x : Source (.name ['x']) := ⟨.name nm_x, by simp [Unsigned, signs]⟩
private theorem src_none : Source noneE := ⟨.name name_none, by simp [Unsigned, noneE, signs]⟩
private theorem src_ahead : Source ahead := by
  refine ⟨.cmp src_egoX.1 (by simp) ?_, by simp [Unsigned, ahead, egoX, signs, signsPairs]⟩
  intro p hp
  simp only [List.mem_cons, List.not_mem_nil, or_false] at hp
  subst hp
  exact .attr (.name nm_o) (fun h => nomatch h) nm_x
private theorem pl_egoX : ProperLeaf (.expr egoX) := ⟨src_egoX, fun _ h => nomatch h⟩
private theorem pl_one : ProperLeaf (.expr one) := ⟨src_one, fun _ h => nomatch h⟩
private theorem pl_none : ProperLeaf (.expr noneE) := ⟨src_none, fun _ h => nomatch h⟩
private theorem pl_ahead : ProperLeaf (.expr ahead) := ⟨src_ahead, fun _ h => nomatch h⟩
private theorem pl_any : ProperLeaf anyAhead := ⟨src_ahead, nm_o, src_x⟩

/-- The value of a variable after two `if`s, in an object: `1 if any(…)`, or `ego.x` if `ego.x > o.x` and `any(…)`. -/
private def exCell : Cell := .cond [⟨[anyAhead], .expr one⟩, ⟨[.expr ahead, anyAhead], .expr egoX⟩]
private def exValue : Value := .obj [(['x'], exCell), (['o'], .leaf (.hole ['e', 'g', 'o'])), (['e', 'g', 'o'], .cond [])]

private theorem pc_ex : ProperCell exCell := by
  intro c hc
  simp only [List.mem_cons, List.not_mem_nil, or_false] at hc
  rcases hc with rfl | rfl
  · exact ⟨by simpa using pl_any, pl_one⟩
  · exact ⟨by simpa using ⟨pl_ahead, pl_any⟩, pl_egoX⟩

private theorem p_ex : Proper exValue := by
  intro p hp
  simp only [List.mem_cons, List.not_mem_nil, or_false] at hp
  rcases hp with rfl | rfl | rfl
  · exact ⟨nm_x, pc_ex⟩
  · exact ⟨nm_o, nm_ego⟩
  · exact ⟨nm_ego, fun _ h => nomatch h⟩

example : dump (some exValue) =
    "{x: <CondVal [1 if [<Reduction any (ego.x > o.x) for o in x>], ego.x if [(ego.x > o.x), <Reduction any (ego.x > o.x) for o in x>]]>, o: Hole(ego), ego: <CondVal []>}".toList := by
  decide +kernel

/-! ### Equality -/

/-- Two symbolic values of a program have the same text only if they are the same value. Missing: calls of a function named `Hole`
(`C107_hole_violated`). -/
theorem C107_same_partial {a b : Value} (ha : Proper a) (hb : Proper b) : irEq (some a) (some b) = true ↔ a = b := by
  rw [irEq, beq_iff_eq]
  exact ⟨dump_inj ha hb, fun h => by rw [h]⟩

example : Proper exValue := p_ex

/-- A variable without a value is not distinguished from one whose value is the constant `None`, and is distinguished from all others. -/
theorem C107_absent {b : Value} (hb : Proper b) : irEq none (some b) = true ↔ b = .cell (.leaf (.expr (.name ['N', 'o', 'n', 'e']))) := by
  have : irEq none (some b) = irEq (some (.cell (.leaf (.expr (.name ['N', 'o', 'n', 'e']))))) (some b) := rfl
  rw [this, C107_same_partial (a := .cell (.leaf (.expr (.name ['N', 'o', 'n', 'e'])))) pl_none hb, eq_comm]

/-- Cases are equal for the parser if they have the same conditions, in the same order, and the same value. -/
theorem C107_case_partial {a b : Case} (ha : ProperCase a) (hb : ProperCase b) : caseEq a b = true ↔ a = b := caseEq_iff ha hb

example : ProperCase ⟨[.expr ahead, anyAhead], .expr egoX⟩ := pc_ex _ (by simp)

/-- Asserts are equal for the parser if they have the same conditions. Missing: the labels (`C107_label_violated`). -/
theorem C107_assert_partial {a b : PAssert} (ha : ∀ l ∈ a.pre, ProperLeaf l) (ha' : ProperLeaf a.cond) (hb : ∀ l ∈ b.pre, ProperLeaf l) (hb' : ProperLeaf b.cond) :
    assertEq a b = true ↔ a.pre = b.pre ∧ a.cond = b.cond := by
  have := caseEq_iff (a := ⟨a.pre, a.cond⟩) (b := ⟨b.pre, b.cond⟩) ⟨ha, ha'⟩ ⟨hb, hb'⟩
  rw [Case.mk.injEq] at this
  exact this

example : (∀ l ∈ [Leaf.expr ahead, anyAhead], ProperLeaf l) ∧ ProperLeaf (.expr egoX) := ⟨by simpa using ⟨pl_ahead, pl_any⟩, pl_egoX⟩

/-- Two asserts with different labels are equal for the parser. -/
theorem C107_label_violated : ∃ a b : PAssert, ProperLeaf a.cond ∧ a.pre = [] ∧ b.pre = [] ∧ a.label ≠ b.label ∧ assertEq a b = true :=
  ⟨⟨.expr ahead, some ['x'], []⟩, ⟨.expr ahead, some ['o'], []⟩, pl_ahead, rfl, rfl, by decide, by decide +kernel⟩

/-- The argument `x` of the decision logic and the call `Hole(x)` are not distinguished. -/
theorem C107_hole_violated : ∃ e : Expr, Source e ∧ irEq (some (.cell (.leaf (.expr e)))) (some (.cell (.leaf (.hole ['x'])))) = true :=
  ⟨.call (.name ['H', 'o', 'l', 'e']) [.name ['x']], source_hole nm_x, by decide +kernel⟩

/-- The order in which attributes were assigned counts. -/
theorem C107_order : ∃ a b : Text × Cell, (Name a.1 ∧ ProperCell a.2) ∧ (Name b.1 ∧ ProperCell b.2) ∧ irEq (some (.obj [a, b])) (some (.obj [b, a])) = false :=
  ⟨(['x'], .leaf (.expr one)), (['o'], .leaf (.expr egoX)), ⟨nm_x, pl_one⟩, ⟨nm_o, pl_egoX⟩, by decide +kernel⟩

/-! ### Merging the branches of an `if` -/

/-- Where the test is true a variable has, after the `if`, the values it has after the first branch, and those it had before; where it is false, those after the
second branch, and those before. Missing: the case that the branches give the variable the same value (`C13_same_value_in_both_branches_violated`), and
`None` in one branch only (`C107_none_violated`). -/
theorem C107_merge_partial {holds : Leaf → Prop} {test : Expr} (hnot : holds (.expr (.un .not test)) ↔ ¬ holds (.expr test)) {t f o r : Option Cell}
    (ht : ∀ x, t = some x → ProperCell x) (hf : ∀ x, f = some x → ProperCell x) (ho : ∀ x, o = some x → ProperCell x) (hne : t ≠ f)
    (hnt : t = none → f ≠ some (.leaf (.expr (.name ['N', 'o', 'n', 'e'])))) (hnf : f = none → t ≠ some (.leaf (.expr (.name ['N', 'o', 'n', 'e']))))
    (h : mergeVar test t f o = .ok r) (v : Leaf) :
    Has holds r v ↔ (holds (.expr test) ∧ Has holds t v) ∨ (¬ holds (.expr test) ∧ Has holds f v) ∨ Has holds o v := by
  have hneq : irEq (t.map .cell) (f.map .cell) = false := by
    rw [Bool.eq_false_iff]
    intro he
    match t, f, ht, hf, hne, hnt, hnf with
    | none, none, _, _, hne, _, _ => exact hne rfl
    | none, some y, _, hf, _, hnt, _ =>
      have := (C107_absent (b := .cell y) (hf y rfl)).1 he
      injection this with this
      exact hnt rfl (by rw [this])
    | some x, none, ht, _, _, _, hnf =>
      have he' : irEq none (some (.cell x)) = true := by
        simp only [Option.map, irEq, beq_iff_eq] at he ⊢
        exact he.symm
      have := (C107_absent (b := .cell x) (ht x rfl)).1 he'
      injection this with this
      exact hnf rfl (by rw [this])
    | some x, some y, ht, hf, hne, _, _ =>
      have := (C107_same_partial (a := .cell x) (b := .cell y) (ht x rfl) (hf y rfl)).1 he
      injection this with this
      exact hne (by rw [this])
  rw [mergeVar, hneq, if_neg (by simp)] at h
  cases hm : mergeIfVal test t f o with
  | error e => rw [hm] at h; cases h
  | ok c =>
    rw [hm] at h
    injection h with h
    subst h
    exact mergeIfVal_has hnot ht hf ho hm v

-- `if ego.x > o.x: v = 1` after `v` had two cases; the branch that does not assign keeps them
example : (∀ x, some (Cell.leaf (.expr one)) = some x → ProperCell x) ∧ (∀ x, some exCell = some x → ProperCell x) ∧
    some (Cell.leaf (.expr one)) ≠ some exCell ∧
    ∃ r, mergeVar ahead (some (.leaf (.expr one))) (some exCell) (some exCell) = .ok (some r) :=
  ⟨by rintro x h; injection h with h; subst h; exact pl_one, by rintro x h; injection h with h; subst h; exact pc_ex, (fun h => by injection h with h; cases h),
    _, rfl⟩

/-- A variable that is set to `None` in one branch only has no value after the `if`. -/
theorem C107_none_violated : ∃ (test e : Expr), Source test ∧ Source e ∧ mergeVar test (some (.leaf (.expr e))) none none = .ok none ∧
    ∀ holds : Leaf → Prop, Has holds (some (.leaf (.expr e))) (.expr e) ∧ ¬ Has holds none (.expr e) :=
  ⟨ahead, noneE, src_ahead, src_none, rfl, fun _ => ⟨rfl, fun h => h⟩⟩

end Verif.Props
