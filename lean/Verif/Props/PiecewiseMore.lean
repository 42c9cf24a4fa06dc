import Verif.Props.Piecewise

/-!
C50, the branches of a piecewise function: which conditions and results are found.
-/

set_option autoImplicit false
set_option linter.unusedSectionVars false

namespace Verif.Props

open Verif.Spec Verif.Pw

section
variable {K : Type} [Field K] [LinearOrder K]

/-- The first `return` among the statements of a branch returns `e`. -/
def FirstReturn (b : List (PS K)) (e : PE K) : Prop := ∃ pre post, b = pre ++ .ret e :: post ∧ ∀ s ∈ pre, ∀ x, s ≠ .ret x

/-- The statement `if … elif … else`: the conditions with their branches, and the branch after `else` (empty if there is none). -/
def ifChain : List (PC K × List (PS K)) → List (PS K) → List (PS K)
  | [], els => els
  | x :: xs, els => [.ifS x.1 x.2 (ifChain xs els)]

private theorem extract_first (e : PE K) (post : List (PS K)) : ∀ pre : List (PS K), (∀ s ∈ pre, ∀ x, s ≠ .ret x) → extractReturn (pre ++ .ret e :: post) = .ok e
  | [], _ => rfl
  | s :: pre, h => by
    have ih := extract_first e post pre (fun s hs => h s (List.mem_cons_of_mem _ hs))
    cases s with
    | ret x => exact absurd rfl (h _ List.mem_cons_self x)
    | _ => exact ih

private theorem extract_of {b : List (PS K)} {e : PE K} (h : FirstReturn b e) : extractReturn b = .ok e := by
  obtain ⟨pre, post, rfl, hp⟩ := h
  exact extract_first e post pre hp

private theorem notIf {els : List (PS K)} {e : PE K} (h : FirstReturn els e) : els ≠ [] ∧ ∀ c b o, els ≠ [.ifS c b o] := by
  obtain ⟨pre, post, rfl, hp⟩ := h
  refine ⟨by simp, fun c b o he => ?_⟩
  cases pre with
  | nil => cases he
  | cons a as => cases as <;> cases he

/-- A branch as it is written, and as it is understood. -/
structure Branch (K : Type) where
  cond : PC K
  body : List (PS K)
  formula : ZF K
  result : PE K

private theorem chain_loop (vars : List String) (els : List (PS K)) (last : List (Option (ZF K) × PE K))
    (hels : els = [] ∧ last = [] ∨ ∃ e, FirstReturn els e ∧ last = [(none, e)]) : ∀ (rows : List (Branch K)) (r : Branch K) (n : Nat), rows.length < n →
    (∀ x ∈ r :: rows, toZC vars x.cond = .ok x.formula ∧ FirstReturn x.body x.result) →
    chainLoop vars n r.cond r.body (ifChain (rows.map fun x => (x.cond, x.body)) els) = .ok ((r :: rows).map (fun x => (some x.formula, x.result)) ++ last)
  | rows, r, 0, hn, _ => absurd hn (Nat.not_lt_zero _)
  | [], r, n + 1, _, h => by
    obtain ⟨h1, h2⟩ := h r List.mem_cons_self
    unfold chainLoop
    rw [h1, extract_of h2]
    simp only [Except.bind, List.map_nil, ifChain, List.map_cons]
    rcases hels with ⟨rfl, rfl⟩ | ⟨e, he, rfl⟩
    · rfl
    · obtain ⟨n1, n2⟩ := notIf he
      have := extract_of he
      split
      · next c b o => exact absurd rfl (n2 c b o)
      · exact absurd rfl n1
      · rw [this]; rfl
  | r' :: rows, r, n + 1, hn, h => by
    obtain ⟨h1, h2⟩ := h r List.mem_cons_self
    have ih := chain_loop vars els last hels rows r' n (by simpa using hn) (fun x hx => h x (List.mem_cons_of_mem _ hx))
    unfold chainLoop
    rw [h1, extract_of h2]
    simp only [Except.bind, List.map_cons, ifChain] at ih ⊢
    rw [ih]
    rfl

private theorem depth_chain (els : List (PS K)) : ∀ rows : List (PC K × List (PS K)), rows.length < chainDepth (ifChain rows els)
  | [] => by unfold ifChain chainDepth; split <;> simp
  | x :: rows => by
    have ih := depth_chain els rows
    simp only [ifChain, chainDepth, List.length_cons]
    omega

/-- **C50**, the branches. A function that is one statement `if … elif … else`, of any length and with other statements than `if` before it, is taken apart completely and in
order: each condition that can be translated comes with what the first `return` of its branch returns, and the branch after `else`, if there is one, comes last, without a
condition. -/
theorem C50_branches (f : PFun K) (pre post : List (PS K)) (hpre : ∀ s ∈ pre, ∀ c b o, s ≠ .ifS c b o) (r : Branch K) (rows : List (Branch K)) (els : List (PS K))
    (hbody : f.body = pre ++ ifChain ((r :: rows).map fun x => (x.cond, x.body)) els ++ post)
    (h : ∀ x ∈ r :: rows, toZC f.params x.cond = .ok x.formula ∧ FirstReturn x.body x.result) :
    (els = [] → parsePiecewise f = .ok ((r :: rows).map fun x => (some x.formula, x.result))) ∧
    ∀ e, FirstReturn els e → parsePiecewise f = .ok ((r :: rows).map (fun x => (some x.formula, x.result)) ++ [(none, e)]) := by
  have hfind : ∀ (c : PC K) (b o : List (PS K)), ∀ pre : List (PS K), (∀ s ∈ pre, ∀ c b o, s ≠ .ifS c b o) → findIf (pre ++ .ifS c b o :: post) = some (c, b, o) := by
    intro c b o pre
    induction pre with
    | nil => intro _; rfl
    | cons s pre ih =>
      intro hp
      have := ih (fun s hs => hp s (List.mem_cons_of_mem _ hs))
      cases s with
      | ifS c b o => exact absurd rfl (hp _ List.mem_cons_self c b o)
      | _ => exact this
  have key : ∀ last, (els = [] ∧ last = [] ∨ ∃ e, FirstReturn els e ∧ last = [(none, e)]) →
      parsePiecewise f = .ok ((r :: rows).map (fun x => (some x.formula, x.result)) ++ last) := by
    intro last hl
    unfold parsePiecewise
    rw [hbody]
    simp only [List.map_cons, ifChain, List.append_assoc, List.cons_append, List.nil_append]
    rw [hfind _ _ _ pre hpre]
    have hd := depth_chain els (rows.map fun x => (x.cond, x.body))
    rw [List.length_map] at hd
    exact chain_loop f.params els last hl rows r _ (by omega) h
  exact ⟨fun he => by simpa using key [] (.inl ⟨he, rfl⟩), fun e he => key _ (.inr ⟨e, he, rfl⟩)⟩

end

/-- A function of two branches and an `else`, with an assignment before the second `return`. -/
example : parsePiecewise (⟨"f", ["x"], [.ifS (.cmp (.name "x") [(.lt, .const 0)]) [.ret (.const 1)] [.ifS (.cmp (.name "x") [(.lt, .const 5)]) [.assign "y" (.const 0), .ret (.name "x")] [.ret (.const 2)]]]⟩ : PFun ℚ) =
    .ok [(some (.cmp .lt (.var "x") (.const 0)), .const 1), (some (.cmp .lt (.var "x") (.const 5)), .name "x"), (none, .const 2)] := by
  refine (C50_branches _ [] [] (by simp) ⟨.cmp (.name "x") [(.lt, .const 0)], [.ret (.const 1)], .cmp .lt (.var "x") (.const 0), .const 1⟩
    [⟨.cmp (.name "x") [(.lt, .const 5)], [.assign "y" (.const 0), .ret (.name "x")], .cmp .lt (.var "x") (.const 5), .name "x"⟩] [.ret (.const 2)] rfl ?_).2 _ ⟨[], [], rfl, by simp⟩
  intro x hx
  simp only [List.mem_cons, List.not_mem_nil, or_false] at hx
  rcases hx with rfl | rfl
  · exact ⟨rfl, [], [], rfl, by simp⟩
  · exact ⟨rfl, [.assign "y" (.const 0)], [], rfl, by simp⟩

end Verif.Props
