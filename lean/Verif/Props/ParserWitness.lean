import Verif.Spec.Decision
import Verif.Spec.NoTwin
import Mathlib.Data.Rat.Defs
import Mathlib.Algebra.Order.Ring.Rat

/-! A small universe of Python values and a decision logic over it, for the non-vacuity examples of the parser theorems. -/

set_option autoImplicit false

namespace Verif.Py.Wit

/-- Numbers, truth values, strings, lists, mode classes and objects with attributes. -/
inductive W where
  | num (n : ℚ)
  | bool (b : Bool)
  | str (s : String)
  | cls
  | nil
  | cons (v l : W)
  | set (o : W) (a : String) (v : W)
deriving DecidableEq

def getattr : W → String → W
  | .set o a v, b => if a = b then v else getattr o b
  | .cls, b => .str b
  | _, _ => .num 0

def truth : W → Bool
  | .num n => n != 0
  | .bool b => b
  | .nil => false
  | _ => true

def ofBool (b : Bool) : W := .bool b

def elems : W → List W
  | .cons v l => v :: elems l
  | _ => []

def toNum : W → ℚ
  | .num n => n
  | _ => 0

def add (v w : W) : W := if w = .num 0 then v else .num (toNum v + toNum w)

/-- `v < w`, on numbers and on strings -/
def less : W → W → Bool
  | .num a, .num b => decide (a < b)
  | .str a, .str b => decide (a < b)
  | _, _ => false

/-- `v ≤ w`, on numbers and on strings -/
def lessEq : W → W → Bool
  | .num a, .num b => decide (a ≤ b)
  | .str a, .str b => decide (a ≤ b)
  | _, _ => false

def cmp (op : String) (v w : W) : Bool :=
  if op = "==" then decide (v = w) else if op = "!=" then decide (v ≠ w) else if op = ">" then less w v else if op = "<" then less v w
  else if op = ">=" then lessEq w v else lessEq v w

def binop (op : String) (v w : W) : W :=
  if op = "+" then .num (toNum v + toNum w) else if op = "-" then .num (toNum v - toNum w) else
  if op = "*" then .num (toNum v * toNum w) else .num (toNum v / toNum w)

/-- `far(p) = p > 1` is the only function -/
def call : W → String → List W → W
  | _, "deepcopy", [v] => v
  | _, "", [v] => ofBool (cmp ">" v (.num 1))
  | _, _, _ => .num 0

def ops : PyOps W where
  truth := truth
  ofBool := ofBool
  str := .str
  getattr := getattr
  setattr := .set
  unary := fun _ v => .num (-toNum v)
  binop := binop
  cmp := cmp
  call := call
  iter := elems
  zero := .num 0
  add := add

theorem lawful : ops.Lawful where
  truth_ofBool := by intro b; cases b <;> rfl
  get_set := by intro o a v b; rfl
  add_zero := by intro v; simp [ops, add]

/-- module-level store: `copy`, the class `Mode` -/
def ν : Store W := fun n => if n = "Mode" then .cls else .num 0

def N0 : Names where
  A := fun n => n = "copy" ∨ n = "Mode"
  B := fun n => n = "o"
  L := fun _ => none

def env0 : Env W where
  vars := [("copy", .cell (.ast (.hole "copy" none))), ("Mode", .cell (.ast (.hole "Mode" none)))]
  asserts := []
  stateDefs := [("State", ["x", "m", "y"])]
  modeDefs := ["Mode"]

/-- `p > 1` -/
def farBody : Expr W := .compare (.name "p") (.cons ">" (.const (.num 1)) .nil)

def farLam : Lam W where
  params := ["p"]
  body := .compare (.hole "p" none) (.cons ">" (.const (.num 1)) .nil)
  asserts := []

def N1 : Names := N0.helper "far" 1 []

def env1 : Env W := env0.set "far" (.lam farLam)

theorem module0 : Module ops ν N0 env0 := by
  refine .base N0 env0 ?_ ?_ ?_ ?_ ?_ ?_ ?_
  · intro k sv h
    simp only [Env.lookup, env0, Dict.get?, List.find?] at h
    by_cases h1 : "copy" = k
    · subst h1; simp at h; subst h; exact ⟨.inl rfl, none, rfl⟩
    · by_cases h2 : "Mode" = k
      · subst h2; simp at h; subst h; exact ⟨.inr rfl, none, rfl⟩
      · simp [h1, h2] at h
  · rintro n (rfl | rfl)
    · exact ⟨none, by decide +kernel⟩
    · exact ⟨none, by decide +kernel⟩
  · rintro n (rfl | rfl) <;> simp [N0]
  · intro n; rfl
  · intro n hn
    have : n = "Mode" := by simpa [env0] using hn
    subst this
    exact ⟨.inr rfl, fun a => rfl⟩
  · intro _ v; rfl
  · simp [N0]

theorem module1 : Module ops ν N1 env1 := by
  have h : Module ops ν (N0.helper "far" 1 []) (env0.set "far" (.lam farLam)) := by
    refine .helper N0 env0 env0 "far" [("p", none)] farBody farLam [] module0 ?_ ?_ ?_ ?_ ?_ ?_ ?_ ?_ ?_
    · refine ⟨by simp [N0], by simp [N0], rfl⟩
    · refine ⟨by simp, ?_, by simp⟩
      intro p hp
      simp only [List.map_cons, List.map_nil, List.mem_singleton] at hp
      subst hp
      refine ⟨by simp [N0], by simp [N0], rfl⟩
    · simp [farBody, Static, StaticC]
    · intro y hy; simp [farBody, binds, bindsC] at hy
    · intro y hy; cases hy
    · intro g k bs hg; simp [N0] at hg
    · intro p hp
      simp only [List.map_cons, List.map_nil, List.mem_singleton] at hp
      subst hp; decide +kernel
    · rfl
    · intro vs hvs
      match vs, hvs with
      | [v], _ => simp [ops, call, updMany, farBody, eval, evalCmps, upd]
  exact h

/-- ```
def decisionLogic(ego: State, others):
    out = copy.deepcopy(ego)
    t = 4 + ego.y
    if any(o.x > ego.x for o in others if o.y == 0) and far(ego.x):
        if ego.m == Mode.A:
            out.m = Mode.B
        else:
            out.y = t + 1
    assert 0 < ego.x < 9
    return out
``` -/
def D : Logic W where
  params := [("ego", some "State"), ("others", none)]
  ego := "ego"
  cls := "State"
  out := "out"
  rest := [
    .assign "t" (.binop "+" (.const (.num 4)) (.attr (.name "ego") "y")),
    .ite (.boolop .and (.cons
        (.gen .any (.compare (.attr (.name "o") "x") (.cons ">" (.attr (.name "ego") "x") .nil)) "o" (.name "others")
          (.cons (.compare (.attr (.name "o") "y") (.cons "==" (.const (.num 0)) .nil)) .nil))
        (.cons (.call "far" (.cons (.attr (.name "ego") "x") .nil)) .nil)))
      [.ite (.compare (.attr (.name "ego") "m") (.cons "==" (.attr (.name "Mode") "A") .nil))
        [.setattr "out" "m" (.attr (.name "Mode") "B")]
        [.setattr "out" "y" (.binop "+" (.name "t") (.const (.num 1)))]]
      [],
    .assert (.compare (.const (.num 0)) (.cons "<" (.attr (.name "ego") "x") (.cons "<" (.const (.num 9)) .nil))) none]

theorem wellNamed : D.WellNamed ops ν N1 env1 ["x", "m", "y"] where
  module := module1
  params := by
    refine ⟨by decide, ?_, by decide⟩
    intro p hp
    simp only [D, List.map_cons, List.map_nil, List.mem_cons, List.not_mem_nil, or_false] at hp
    rcases hp with rfl | rfl <;> refine ⟨by simp [N1, N0, Names.helper], by simp [N1, N0, Names.helper], by decide +kernel⟩
  ego := by simp [D]
  state := by decide +kernel
  copy := .inl rfl
  out := ⟨by simp [N1, N0, Names.helper, Names.params, D], by simp [N1, N0, Names.helper, Names.params, D], by decide +kernel⟩
  static := by
    have hL : N1.L "far" = some (1, []) := by decide +kernel
    have hA : ∀ n, (N1.params (D.params.map Prod.fst)).A n ↔ n = "ego" ∨ n = "others" ∨ n = "copy" ∨ n = "Mode" := by
      intro n; simp [N1, N0, Names.helper, Names.params, D, or_assoc]
    have hB : ∀ n, (N1.params (D.params.map Prod.fst)).B n ↔ n = "o" := by
      intro n; rfl
    have hl : ∀ n, n = "t" ∨ n = "out" → (N1.params (D.params.map Prod.fst)).Local n := by
      intro n hn
      refine ⟨by rw [hA]; rcases hn with rfl | rfl <;> decide, by rw [hB]; rcases hn with rfl | rfl <;> decide, ?_⟩
      rcases hn with rfl | rfl <;> decide +kernel
    simp only [D, StaticSs, StaticS, Static, StaticL, StaticC, Plain, and_true, true_and]
    refine ⟨hl _ (.inl rfl), ⟨⟨(hB _).2 rfl, ⟨_, rfl, (hA _).2 (by simp)⟩, ?_⟩, .inr ⟨1, [], hL, rfl, by simp⟩⟩,
      ⟨hl _ (.inr rfl), _, rfl, (hA _).2 (by simp)⟩, hl _ (.inr rfl)⟩
    intro n hn
    left
    have : "o" = n := by simpa [occursL, occurs, occursC] using hn
    exact this.symm

theorem noTwin : D.noTwin (.num 0) env1 = true := by decide +kernel

end Verif.Py.Wit
