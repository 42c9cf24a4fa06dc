import Verif.Proofs.Piecewise
import Mathlib.Tactic.Linarith
import Mathlib.Tactic.NormNum

/-!
C50: the bounds computed for a piecewise function contain its value at every point of the box.
-/

set_option autoImplicit false
set_option linter.unusedSectionVars false

namespace Verif.Props

open Verif.Spec Verif.Pw

/-- The full statement: for every function, the value at every point of the box lies in the bounds. `args` are
the names at the call. -/
def C50 (K : Type) [Field K] [LinearOrder K] : Prop :=
  ∀ (F : Funs K) (opt : Opt K), OptCorrect opt → ∀ (eb : EB K), (∀ e, ExprSound F eb e) → ∀ (f : PFun K) (args : List String) (cur : Bounds K)
    (r : List (K × K)), handlePiecewise opt eb f args cur = .ok r → ∀ vals,
    List.Forall₂ (fun a v => ∃ l, Dict.get? cur a = some l ∧ InSome l v) args vals → ∀ v, callFn F f vals = some v → InSome r v

section
variable {K : Type} [Field K] [LinearOrder K]

/-- For functions that consist of one `if` statement with `elif` branches and a final `else`, whose branches return, whose comparisons have one operator each,
called with variables named like the parameters: the value at every point of the box lies in the bounds. Missing: chained
comparisons, functions without final `else`, calls with other names; for these the statement is false, see below. -/
theorem C50_covers_partial (F : Funs K) (opt : Opt K) (ho : OptCorrect opt) (eb : EB K) (f : PFun K) (hn : f.params.Nodup)
    (pre post b o : List (PS K)) (c : PC K) (outs : List (PE K)) (hpre : ∀ s ∈ pre, s = .skip) (hbody : f.body = pre ++ .ifS c b o :: post)
    (hch : IfChain c b o outs) (heb : ∀ e ∈ outs, ExprSound F eb e) (cur : Bounds K) (r : List (K × K))
    (h : handlePiecewise opt eb f f.params cur = .ok r) (vals : List K)
    (hv : List.Forall₂ (fun a v => ∃ l, Dict.get? cur a = some l ∧ InSome l v) f.params vals) (v : K) (hcall : callFn F f vals = some v) :
    InSome r v :=
  handlePiecewise_covers F opt ho eb f hn pre post b o c outs hpre hbody hch heb cur r h vals hv v hcall

end

/-- Bounds of constants, as the code computes them; other expressions raise an exception. -/
def constBounds : EB ℚ := fun e _ => match e with | .const c => .ok [(c, c)] | .neg (.const c) => .ok [(-c, -c)] | _ => .error "unsupported"

theorem constBounds_sound (F : Funs ℚ) (e : PE ℚ) : ExprSound F constBounds e := by
  intro b l h env v _ hv
  unfold constBounds at h
  split at h
  · injection h with h; subst h
    simp only [evalE] at hv; injection hv with hv; subst hv
    exact ⟨_, List.mem_singleton_self _, le_refl _, le_refl _⟩
  · injection h with h; subst h
    simp only [evalE, Option.map_some] at hv; injection hv with hv; subst hv
    exact ⟨_, List.mem_singleton_self _, le_refl _, le_refl _⟩
  · cases h

def noFuns : Funs ℚ := ⟨fun _ _ => none, fun _ _ _ => none⟩

theorem test_lt {K : Type} [Field K] [LinearOrder K] (a b : K) : (CmpOp.test .lt a b = true) = (a < b) := by simp [CmpOp.test]
theorem test_le {K : Type} [Field K] [LinearOrder K] (a b : K) : (CmpOp.test .le a b = true) = (a ≤ b) := by simp [CmpOp.test]
theorem test_gt {K : Type} [Field K] [LinearOrder K] (a b : K) : (CmpOp.test .gt a b = true) = (b < a) := by simp [CmpOp.test]
theorem test_ge {K : Type} [Field K] [LinearOrder K] (a b : K) : (CmpOp.test .ge a b = true) = (b ≤ a) := by simp [CmpOp.test]

/-- A box check that is false or true for a formula without variables left. -/
theorem constrain_none {K : Type} [Field K] [LinearOrder K] (opt : Opt K) (ho : OptCorrect opt) (n : String) (iv : K × K) (d : Dict String (K × K)) (f : ZF K)
    (h : ∀ d0 x, InNamedBox ((n, iv) :: d) x → ¬ ZF.Holds d0 x f) : constrain opt ((n, iv) :: d) f = none := by
  unfold constrain
  have : Dict.keys ((n, iv) :: d) = n :: Dict.keys d := rfl
  rw [this, List.mapM_cons, ho.unsat true _ f n h]
  rfl

/-- `def sign(psi, phi): if psi >= 0 and psi <= phi: return -1; elif psi < 0: return 1; else: return 2`. -/
def exSign : PFun ℚ := ⟨"sign", ["psi", "phi"], [.skip,
  .ifS (.and (.cmp (.name "psi") [(.ge, .const 0)]) (.cmp (.name "psi") [(.le, .name "phi")])) [.ret (.neg (.const 1))]
    [.ifS (.cmp (.name "psi") [(.lt, .const 0)]) [.ret (.const 1)] [.ret (.const 2)]]]⟩

def exCur : Bounds ℚ := [("x", [(0, 0)]), ("psi", [(-2, -1), (0, 1/2)]), ("phi", [(1, 1)])]

/-- The bounds of `sign` over `psi` in `[-2, -1]` or `[0, 1/2]` and `phi = 1`: the third branch is not reached. -/
theorem exSign_bounds (eb : EB ℚ) (he1 : ∀ b, eb (.const 1) b = .ok [(1, 1)]) (he2 : ∀ b, eb (.neg (.const 1)) b = .ok [(-1, -1)]) (cur : Bounds ℚ)
    (hl : lookupAll cur exSign.params = .ok [[(-2, -1), (0, 1/2)], [(1, 1)]]) : handlePiecewise looseOpt eb exSign exSign.params cur = .ok [(-1, 1)] := by
  have ho : OptCorrect (looseOpt : Opt ℚ) := looseOpt_correct
  have hp : parsePiecewise exSign = .ok [(some (.and (.cmp .ge (.var "psi") (.const 0)) (.cmp .le (.var "psi") (.var "phi"))), .neg (.const 1)),
      (some (.cmp .lt (.var "psi") (.const 0)), .const 1), (none, .const 2)] := by
    simp [parsePiecewise, exSign, findIf, chainDepth, chainLoop, toZC, toZ, cmpLoop, extractReturn, Except.bind, Except.map]
  have hpr : product [[((-2 : ℚ), (-1 : ℚ)), (0, 1/2)], [(1, 1)]] = [[(-2, -1), (1, 1)], [(0, 1/2), (1, 1)]] := rfl
  unfold handlePiecewise
  rw [hl, hp]
  simp only [Except.bind]
  rw [hpr]
  have hx1 : InNamedBox [("psi", ((-2 : ℚ), (-1 : ℚ))), ("phi", (1, 1))] (fun n => if n = "psi" then -3/2 else 1) := by
    intro p hp
    simp only [List.mem_cons, List.not_mem_nil, or_false] at hp
    rcases hp with rfl | rfl <;> exact ⟨by decide +kernel, by decide +kernel⟩
  have hx2 : InNamedBox [("psi", ((0 : ℚ), (1/2 : ℚ))), ("phi", (1, 1))] (fun n => if n = "psi" then 1/4 else 1) := by
    intro p hp
    simp only [List.mem_cons, List.not_mem_nil, or_false] at hp
    rcases hp with rfl | rfl <;> exact ⟨by decide +kernel, by decide +kernel⟩
  have z1 : zipDict exSign.params [((-2 : ℚ), (-1 : ℚ)), (1, 1)] = [("psi", ((-2 : ℚ), (-1 : ℚ))), ("phi", (1, 1))] := rfl
  have z2 : zipDict exSign.params [((0 : ℚ), (1/2 : ℚ)), (1, 1)] = [("psi", ((0 : ℚ), (1/2 : ℚ))), ("phi", (1, 1))] := rfl
  have c1 : comboBounds looseOpt eb [(some (.and (.cmp .ge (.var "psi") (.const 0)) (.cmp .le (.var "psi") (.var "phi"))), .neg (.const 1)),
      (some (.cmp .lt (.var "psi") (.const 0)), .const 1), (none, .const 2)] exSign.params [((-2 : ℚ), (-1 : ℚ)), (1, 1)] = .ok [(1, 1)] := by
    unfold comboBounds boundedPiecewise
    rw [z1, piecesLoop, constrain_none looseOpt ho, piecesLoop]
    · obtain ⟨b, hb, _⟩ := constrain_some looseOpt ho _ (.cmp .lt (.var "psi") (.const 0)) (fun _ => 0) _ hx1
        (by simp [ZF.Holds, ZE.val, CmpOp.test]; norm_num)
      rw [hb, piecesLoop, constrain_none looseOpt ho, piecesLoop]
      · simp only [Option.map_none, Option.map_some, Option.toList_none, Option.toList_some, List.nil_append, List.append_nil, List.mapM_cons, List.mapM_nil, he1]
        rfl
      · intro d0 x hx hh
        have := hx ("psi", _) (List.mem_cons_self ..)
        simp only [List.nil_append, List.cons_append, conj, ZF.Holds, ZE.val, test_lt, test_le, test_gt, test_ge, ge_iff_le, gt_iff_lt, not_and, not_lt, not_le] at hh
        dsimp only at this
        linarith [this.2, hh.2]
    · intro d0 x hx hh
      have := hx ("psi", _) (List.mem_cons_self ..)
      simp only [ZF.Holds, ZE.val, test_lt, test_le, test_gt, test_ge, ge_iff_le, gt_iff_lt] at hh
      dsimp only at this
      linarith [this.2, hh.1]
  have c2 : comboBounds looseOpt eb [(some (.and (.cmp .ge (.var "psi") (.const 0)) (.cmp .le (.var "psi") (.var "phi"))), .neg (.const 1)),
      (some (.cmp .lt (.var "psi") (.const 0)), .const 1), (none, .const 2)] exSign.params [((0 : ℚ), (1/2 : ℚ)), (1, 1)] = .ok [(-1, -1)] := by
    unfold comboBounds boundedPiecewise
    rw [z2, piecesLoop]
    obtain ⟨b, hb, _⟩ := constrain_some looseOpt ho _ (.and (.cmp .ge (.var "psi") (.const 0)) (.cmp .le (.var "psi") (.var "phi"))) (fun _ => 0) _ hx2
        (by simp [ZF.Holds, ZE.val, CmpOp.test]; norm_num)
    rw [hb, piecesLoop, constrain_none looseOpt ho, piecesLoop, constrain_none looseOpt ho, piecesLoop]
    · simp only [Option.map_none, Option.map_some, Option.toList_none, Option.toList_some, List.nil_append, List.append_nil, List.mapM_cons, List.mapM_nil, he2]
      rfl
    · intro d0 x hx hh
      have h1 := hx ("psi", _) (List.mem_cons_self ..)
      have h2 := hx ("phi", _) (List.mem_cons_of_mem _ (List.mem_cons_self ..))
      simp only [List.nil_append, List.cons_append, conj, ZF.Holds, ZE.val, test_lt, test_le, test_gt, test_ge, ge_iff_le, gt_iff_lt, not_and, not_lt, not_le] at hh
      dsimp only at h1 h2
      linarith [hh.1 h1.1, h1.2, h2.1]
    · intro d0 x hx hh
      have h1 := hx ("psi", _) (List.mem_cons_self ..)
      simp only [ZF.Holds, ZE.val, test_lt, test_le, test_gt, test_ge, ge_iff_le, gt_iff_lt] at hh
      dsimp only at h1
      linarith [h1.1]
  simp only [List.mapM_cons, List.mapM_nil, c1, c2]
  decide +kernel

/-- The hypotheses of `C50_covers_partial` hold for a function with three branches and an argument with two
intervals, and the bounds are `[-1, 1]`. -/
example : OptCorrect (looseOpt : Opt ℚ) ∧ exSign.params.Nodup ∧ (∀ e, ExprSound noFuns constBounds e) ∧
    IfChain (K := ℚ) (.and (.cmp (.name "psi") [(.ge, .const 0)]) (.cmp (.name "psi") [(.le, .name "phi")])) [.ret (.neg (.const 1))]
      [.ifS (.cmp (.name "psi") [(.lt, .const 0)]) [.ret (.const 1)] [.ret (.const 2)]] [.neg (.const 1), .const 1, .const 2] ∧
    handlePiecewise looseOpt constBounds exSign exSign.params exCur = .ok [(-1, 1)] ∧
    callFn noFuns exSign [-3/2, 1] = some 1 ∧ callFn noFuns exSign [1/4, 1] = some (-1) :=
  ⟨looseOpt_correct, by decide, constBounds_sound noFuns, .step _ _ _ _ _ _ _ ⟨rfl, rfl⟩ (.last _ _ _ _ _ rfl),
   exSign_bounds constBounds (fun _ => rfl) (fun _ => rfl) exCur rfl, by decide +kernel, by decide +kernel⟩

/-- Chained comparisons are read wrongly: `0 <= psi <= 1` becomes `0 <= psi and 0 <= 1`. For
`if 0 <= psi <= 1: return 5; else: return 7` and `psi` in `[2, 3]` the bounds are `[5, 5]`, although the value is 7. -/
theorem C50_chained_violated (opt : Opt ℚ) (ho : OptCorrect opt) :
    ∃ (f : PFun ℚ) (cur : Bounds ℚ) (r : List (ℚ × ℚ)) (v : ℚ), handlePiecewise opt constBounds f f.params cur = .ok r ∧
      (∃ l, Dict.get? cur "psi" = some l ∧ InSome l 2) ∧ callFn noFuns f [2] = some v ∧ ¬ InSome r v := by
  refine ⟨⟨"f", ["psi"], [.ifS (.cmp (.const 0) [(.le, .name "psi"), (.le, .const 1)]) [.ret (.const 5)] [.ret (.const 7)]]⟩,
    [("psi", [(2, 3)])], [(5, 5)], 7, ?_, ⟨_, rfl, (2, 3), by simp, by norm_num, by norm_num⟩, by decide +kernel, ?_⟩
  · unfold handlePiecewise
    have hp : parsePiecewise (K := ℚ) ⟨"f", ["psi"], [.ifS (.cmp (.const 0) [(.le, .name "psi"), (.le, .const 1)]) [.ret (.const 5)] [.ret (.const 7)]]⟩ =
      .ok [(some (.and (.cmp .le (.const 0) (.var "psi")) (.cmp .le (.const 0) (.const 1))), .const 5), (none, .const 7)] := rfl
    have hl : lookupAll [("psi", [((2 : ℚ), (3 : ℚ))])] ["psi"] = .ok [[(2, 3)]] := rfl
    rw [hp, hl]
    simp only [Except.bind]
    have c1 : comboBounds opt constBounds [(some (.and (.cmp .le (.const 0) (.var "psi")) (.cmp .le (.const 0) (.const 1))), .const 5), (none, .const 7)]
        ["psi"] [((2 : ℚ), (3 : ℚ))] = .ok [(5, 5)] := by
      unfold comboBounds boundedPiecewise
      have z : zipDict ["psi"] [((2 : ℚ), (3 : ℚ))] = [("psi", (2, 3))] := rfl
      rw [z, piecesLoop]
      obtain ⟨b, hb, _⟩ := constrain_some opt ho [("psi", ((2 : ℚ), (3 : ℚ)))] (.and (.cmp .le (.const 0) (.var "psi")) (.cmp .le (.const 0) (.const 1)))
        (fun _ => 0) (fun _ => 2) (by intro p hp; rw [List.mem_singleton.1 hp]; norm_num) (by simp [ZF.Holds, ZE.val, CmpOp.test])
      rw [hb, piecesLoop, constrain_none opt ho, piecesLoop]
      · rfl
      · intro d0 x hx hh
        have h1 := hx ("psi", _) (List.mem_cons_self ..)
        simp only [List.nil_append, List.cons_append, conj, ZF.Holds, ZE.val, test_lt, test_le, test_gt, test_ge, ge_iff_le, gt_iff_lt, not_and, not_lt, not_le] at hh
        dsimp only at h1
        linarith [h1.1, hh (by linarith [h1.1])]
    have hpr : product [[((2 : ℚ), (3 : ℚ))]] = [[(2, 3)]] := rfl
    simp only [hpr, List.mapM_cons, List.mapM_nil, c1]
    decide +kernel
  · rintro ⟨iv, hiv, h1, h2⟩
    rw [List.mem_singleton.1 hiv] at h2
    norm_num at h2

/-- A `return` after an `if` without `else` is not seen: for `if psi > 0: return 1` followed by `return 2` and
`psi` in `[-1, 1]` the bounds are `[1, 1]`, although the value at `-1` is 2. -/
theorem C50_fallthrough_violated (opt : Opt ℚ) (ho : OptCorrect opt) :
    ∃ (f : PFun ℚ) (cur : Bounds ℚ) (r : List (ℚ × ℚ)) (v : ℚ), handlePiecewise opt constBounds f f.params cur = .ok r ∧
      (∃ l, Dict.get? cur "psi" = some l ∧ InSome l (-1)) ∧ callFn noFuns f [-1] = some v ∧ ¬ InSome r v := by
  refine ⟨⟨"f", ["psi"], [.ifS (.cmp (.name "psi") [(.gt, .const 0)]) [.ret (.const 1)] [], .ret (.const 2)]⟩,
    [("psi", [(-1, 1)])], [(1, 1)], 2, ?_, ⟨_, rfl, (-1, 1), by simp, by norm_num, by norm_num⟩, by decide +kernel, ?_⟩
  · unfold handlePiecewise
    have hp : parsePiecewise (K := ℚ) ⟨"f", ["psi"], [.ifS (.cmp (.name "psi") [(.gt, .const 0)]) [.ret (.const 1)] [], .ret (.const 2)]⟩ =
      .ok [(some (.cmp .gt (.var "psi") (.const 0)), .const 1)] := rfl
    have hl : lookupAll [("psi", [((-1 : ℚ), (1 : ℚ))])] ["psi"] = .ok [[(-1, 1)]] := rfl
    rw [hp, hl]
    simp only [Except.bind]
    have c1 : comboBounds opt constBounds [(some (.cmp .gt (.var "psi") (.const 0)), .const 1)]
        ["psi"] [((-1 : ℚ), (1 : ℚ))] = .ok [(1, 1)] := by
      unfold comboBounds boundedPiecewise
      have z : zipDict ["psi"] [((-1 : ℚ), (1 : ℚ))] = [("psi", (-1, 1))] := rfl
      rw [z, piecesLoop]
      obtain ⟨b, hb, _⟩ := constrain_some opt ho [("psi", ((-1 : ℚ), (1 : ℚ)))] (.cmp .gt (.var "psi") (.const 0))
        (fun _ => 0) (fun _ => 1) (by intro p hp; rw [List.mem_singleton.1 hp]; norm_num) (by simp [ZF.Holds, ZE.val, CmpOp.test])
      rw [hb, piecesLoop]
      rfl
    have hpr : product [[((-1 : ℚ), (1 : ℚ))]] = [[(-1, 1)]] := rfl
    simp only [hpr, List.mapM_cons, List.mapM_nil, c1]
    decide +kernel
  · rintro ⟨iv, hiv, h1, h2⟩
    rw [List.mem_singleton.1 hiv] at h2
    norm_num at h2

/-- The box is built with the names at the call, the conditions use the names of the parameters: for
`def f(a, b): if a > b: return 1; else: return 0`, called as `f(b, a)` with `a` in `[0, 1]` and `b` in `[5, 6]`, the bounds are
`[0, 0]`, although the value is 1. -/
theorem C50_names_violated (opt : Opt ℚ) (ho : OptCorrect opt) :
    ∃ (f : PFun ℚ) (args : List String) (cur : Bounds ℚ) (r : List (ℚ × ℚ)) (v : ℚ), handlePiecewise opt constBounds f args cur = .ok r ∧
      List.Forall₂ (fun a v => ∃ l, Dict.get? cur a = some l ∧ InSome l v) args [5, 0] ∧ callFn noFuns f [5, 0] = some v ∧ ¬ InSome r v := by
  refine ⟨⟨"f", ["a", "b"], [.ifS (.cmp (.name "a") [(.gt, .name "b")]) [.ret (.const 1)] [.ret (.const 0)]]⟩, ["b", "a"],
    [("a", [(0, 1)]), ("b", [(5, 6)])], [(0, 0)], 1, ?_, .cons ⟨_, rfl, (5, 6), by simp, by norm_num, by norm_num⟩
      (.cons ⟨_, rfl, (0, 1), by simp, by norm_num, by norm_num⟩ .nil), by decide +kernel, ?_⟩
  · unfold handlePiecewise
    have hp : parsePiecewise (K := ℚ) ⟨"f", ["a", "b"], [.ifS (.cmp (.name "a") [(.gt, .name "b")]) [.ret (.const 1)] [.ret (.const 0)]]⟩ =
      .ok [(some (.cmp .gt (.var "a") (.var "b")), .const 1), (none, .const 0)] := rfl
    have hl : lookupAll [("a", [((0 : ℚ), (1 : ℚ))]), ("b", [(5, 6)])] ["b", "a"] = .ok [[(5, 6)], [(0, 1)]] := rfl
    rw [hp, hl]
    simp only [Except.bind]
    have c1 : comboBounds opt constBounds [(some (.cmp .gt (.var "a") (.var "b")), .const 1), (none, .const 0)]
        ["b", "a"] [((5 : ℚ), (6 : ℚ)), (0, 1)] = .ok [(0, 0)] := by
      unfold comboBounds boundedPiecewise
      have z : zipDict ["b", "a"] [((5 : ℚ), (6 : ℚ)), (0, 1)] = [("b", (5, 6)), ("a", (0, 1))] := rfl
      rw [z, piecesLoop, constrain_none opt ho, piecesLoop]
      · obtain ⟨b, hb, _⟩ := constrain_some opt ho [("b", ((5 : ℚ), (6 : ℚ))), ("a", (0, 1))] (conj ([] ++ [.not (.cmp .gt (.var "a") (.var "b"))]))
          (fun _ => 0) (fun n => if n = "b" then 5 else 0) (by
            intro p hp
            simp only [List.mem_cons, List.not_mem_nil, or_false] at hp
            rcases hp with rfl | rfl <;> exact ⟨by decide +kernel, by decide +kernel⟩) (by simp [conj, ZF.Holds, ZE.val, CmpOp.test])
        rw [hb, piecesLoop]
        rfl
      · intro d0 x hx hh
        have h1 := hx ("b", _) (List.mem_cons_self ..)
        have h2 := hx ("a", _) (List.mem_cons_of_mem _ (List.mem_cons_self ..))
        simp only [ZF.Holds, ZE.val, test_lt, test_le, test_gt, test_ge, ge_iff_le, gt_iff_lt] at hh
        dsimp only at h1 h2
        linarith [h1.1, h2.2]
    have hpr : product [[((5 : ℚ), (6 : ℚ))], [(0, 1)]] = [[(5, 6), (0, 1)]] := rfl
    simp only [hpr, List.mapM_cons, List.mapM_nil, c1]
    decide +kernel
  · rintro ⟨iv, hiv, h1, h2⟩
    rw [List.mem_singleton.1 hiv] at h2
    norm_num at h2

/-- The full statement is false. -/
theorem C50_violated : ¬ C50 ℚ := by
  intro h
  obtain ⟨f, args, cur, r, v, h1, h2, h3, h4⟩ := C50_names_violated looseOpt looseOpt_correct
  exact h4 (h noFuns looseOpt looseOpt_correct constBounds (constBounds_sound noFuns) f args cur r h1 _ h2 v h3)

end Verif.Props
