import Verif.Proofs.MixText
import Mathlib.Tactic.NormNum

/-!
C98: reach tubes of agents whose dynamics are taken from the source text.
-/

set_option autoImplicit false
set_option linter.unusedSectionVars false

namespace Verif.Props
open Verif.Mix Verif.MixT

section
variable {K : Type} [Field K] [LinearOrder K] [IsStrictOrderedRing K]

/-- **C98** (partial: for functions of the form of the example, and an exact minimizer). The tube that is computed from the source of `dynamics` contains
every trajectory of the Python function, from every state of the initial box, for all sequences of parameters within their bounds: the rectangle
from step `k` to step `k + 1` contains the states at both. The rectangles reach the horizon. -/
theorem C98_tube_partial [FloorRing K] (T : Tools K) (hT : Lawful T) (ws xs ps : List String) (es : List (Ex K)) (hp : Proper ws xs ps es)
    (horizon dt : K) (hdt : 0 < dt) (hmin : ∀ e ∈ es, Minimizes T (subst "dt" dt (T.sym e))) (lo hi w what : List K) (hbox : List.Forall₂ (· ≤ ·) lo hi)
    (hw : List.Forall₂ (· ≤ ·) w what) (hl : lo.length = xs.length) (hwl : w.length = ws.length) :
    ∃ (n : Nat) (tube : List (K × List K)), tubeText T (standard ws xs ps es) lo hi w what horizon dt = .ok tube ∧ tube.length = 2 * n ∧ horizon ≤ n * dt ∧
      ∀ a v : Nat → List K, InBox lo hi (a 0) → (∀ k, InBox w what (v k)) →
        (∀ k, call (standard ws xs ps es) (a k) (v k ++ [dt]) = some (a (k + 1))) →
        ∀ k < n, ∃ l u, tube[2 * k]? = some ((k : K) * dt, l) ∧ tube[2 * k + 1]? = some (((k + 1 : Nat) : K) * dt, u) ∧ InBox l u (a k) ∧ InBox l u (a (k + 1)) := by
  have n1 : (xs ++ ws).Nodup := by
    have hd := hp.distinct
    rw [← List.append_assoc] at hd
    exact (List.nodup_append.1 hd).1
  have hu : ∀ e ∈ es.map (fun e => subst "dt" dt (T.sym e)), ∀ n ∈ names e, n ∈ xs ++ ws := by
    intro e he n hn
    obtain ⟨e, he', rfl⟩ := List.mem_map.1 he
    obtain ⟨h1, h2⟩ := names_subst _ _ _ _ hn
    rcases hp.uses e he' n (hT.fewer e n h1) with h | h | h
    · simp [h]
    · simp [h]
    · exact absurd h h2
  have hb := bounds hT n1 (exprs := es.map fun e => subst "dt" dt (T.sym e)) (by simp [hp.size.2]) hu
    (by intro e he; obtain ⟨e, he', rfl⟩ := List.mem_map.1 he; exact hmin e he') hw hwl
  rw [← hl] at hb
  obtain ⟨n, tube, h1, h2, h3, h4⟩ := C41_sized _ _ lo hi w what hb horizon dt hdt hbox hw
  refine ⟨n, tube, ?_, h2, h3, ?_⟩
  · unfold tubeText
    rw [extract_standard ws xs ps es hp.size.1 hp.size.2]
    exact h1
  · intro a v ha hv hn
    have len : ∀ k, (a k).length = xs.length := by
      intro k
      induction k with
      | zero => rw [← ha.1.length_eq, hl]
      | succ k ih =>
        rw [call_standard hT hp ih (by rw [← (hv k).1.length_eq, hwl]) (hn k), List.length_map, hp.size.2]
    refine h4 a v ⟨ha, hv, fun k => ?_⟩
    rw [call_standard hT hp (len k) (by rw [← (hv k).1.length_eq, hwl]) (hn k), List.map_map]
    rfl

end

/-! ### A case -/

namespace MixTEx

/-- `a + dt * w` -/
def move : Ex ℚ := .add (.var "a") (.mul (.var "dt") (.var "w"))

open Classical in
/-- A minimizer that finds the minimum if there is one. -/
noncomputable def minimize (g : List ℚ → ℚ) (lo hi : List ℚ) : ℚ :=
  if h : ∃ z, InBox lo hi z ∧ ∀ y, InBox lo hi y → g z ≤ g y then g h.choose else 0

theorem minimize_exact {g : List ℚ → ℚ} (h : ∀ lo hi, List.Forall₂ (· ≤ ·) lo hi → ∃ z, InBox lo hi z ∧ ∀ y, InBox lo hi y → g z ≤ g y) : ExactFor minimize g := by
  intro lo hi hb
  have h1 := h lo hi hb
  unfold minimize
  rw [dif_pos h1]
  exact ⟨h1.choose_spec.2, _, h1.choose_spec.1, rfl⟩

noncomputable def T : Tools ℚ := ⟨minimize, id, fun e => (names e).dedup⟩

theorem val_of_eval (e : Ex ℚ) (ρ : String → ℚ) (v : ℚ) (h : eval (fun n => some (.num (ρ n))) e = some v) : val ρ e = v := by
  induction e generalizing v with
  | num k => exact Option.some.inj h
  | var n => exact Option.some.inj h
  | neg e ih =>
    simp only [eval, Option.map_eq_some_iff] at h
    obtain ⟨x, hx, rfl⟩ := h
    rw [val, ih x hx]
  | add a b iha ihb | sub a b iha ihb | mul a b iha ihb =>
    simp only [eval, Option.bind_eq_some_iff, Option.map_eq_some_iff] at h
    obtain ⟨x, hx, y, hy, rfl⟩ := h
    rw [val, iha x hx, ihb y hy]
  | div a b iha ihb =>
    simp only [eval, Option.bind_eq_some_iff] at h
    obtain ⟨x, hx, y, hy, h⟩ := h
    split at h
    · cases h
    · cases h
      rw [val, iha x hx, ihb y hy]
  | pow a n ih =>
    simp only [eval, Option.map_eq_some_iff] at h
    obtain ⟨x, hx, rfl⟩ := h
    rw [val, ih x hx]

theorem lawful : Lawful T where
  fewer e n h := h
  same e ρ v h := val_of_eval e ρ v h
  once e := List.nodup_dedup _
  all e n := List.mem_dedup

theorem proper : Proper ["w"] ["a"] ["a_plus"] [move] where
  distinct := by decide
  size := by decide
  uses := by
    intro e he n hn
    simp only [List.mem_singleton] at he
    subst he
    simp only [move, names, List.cons_append, List.nil_append, List.mem_cons, List.not_mem_nil, or_false] at hn
    simp only [List.mem_singleton]
    tauto

theorem minimizes : Minimizes T (subst "dt" (1/2) (T.sym move)) := by
  have e1 : T.symbols (subst "dt" (1/2) (T.sym move)) = ["a", "w"] := by decide +kernel
  have e2 : T.symbols (.neg (subst "dt" (1/2) (T.sym move))) = ["a", "w"] := by decide +kernel
  have v1 : ∀ a w : ℚ, lambdify ["a", "w"] (subst "dt" (1/2) (T.sym move)) [a, w] = a + 1/2 * w := fun _ _ => rfl
  have v2 : ∀ a w : ℚ, lambdify ["a", "w"] (.neg (subst "dt" (1/2) (T.sym move))) [a, w] = -(a + 1/2 * w) := fun _ _ => rfl
  have mono : ∀ y z : List ℚ, List.Forall₂ (· ≤ ·) y z → lambdify ["a", "w"] (subst "dt" (1/2) (T.sym move)) y ≤ lambdify ["a", "w"] (subst "dt" (1/2) (T.sym move)) z := by
    intro y z h
    have : ∀ u : List ℚ, lambdify ["a", "w"] (subst "dt" (1/2) (T.sym move)) u = u.getD 0 0 + 1/2 * u.getD 1 0 := by
      intro u
      match u with
      | [] => decide +kernel
      | [a] => show a + 1/2 * 0 = a + 1/2 * 0; rfl
      | a :: b :: _ => rfl
    rw [this, this]
    match h with
    | .nil => simp
    | .cons h .nil => simpa using h
    | .cons h (.cons h' _) => simp only [List.getD_cons_zero, List.getD_cons_succ]; linarith
  have neg : ∀ y, lambdify ["a", "w"] (.neg (subst "dt" (1/2) (T.sym move))) y = - lambdify ["a", "w"] (subst "dt" (1/2) (T.sym move)) y := fun _ => rfl
  refine ⟨?_, ?_⟩
  · rw [e1]
    exact minimize_exact fun lo hi h => ⟨lo, ⟨List.forall₂_same.2 fun _ _ => le_refl _, h⟩, fun y hy => mono _ _ hy.1⟩
  · rw [e2]
    refine minimize_exact fun lo hi h => ⟨hi, ⟨h, List.forall₂_same.2 fun _ _ => le_refl _⟩, fun y hy => ?_⟩
    rw [neg, neg]
    exact neg_le_neg (mono _ _ hy.2)

/-- The hypotheses of `C98_tube_partial` are met: `a_plus = a + dt * w`; with `a` in `[0, 1]` and `w` in `[1, 2]`, the tube contains the trajectory
`a = 1/2, 1, 3/2, …` for the parameter 1. -/
example : ∃ n tube, tubeText T (standard ["w"] ["a"] ["a_plus"] [move]) [0] [1] [1] [2] 3 (1/2) = .ok tube ∧ tube.length = 2 * n ∧ (3 : ℚ) ≤ n * (1/2) ∧
    ∀ k < n, ∃ l u, tube[2 * k]? = some ((k : ℚ) * (1/2), l) ∧ tube[2 * k + 1]? = some (((k + 1 : Nat) : ℚ) * (1/2), u) ∧
      InBox l u [1/2 + 1/2 * (k : ℚ)] := by
  obtain ⟨n, tube, h1, h2, h3, h4⟩ := C98_tube_partial T lawful ["w"] ["a"] ["a_plus"] [move] proper 3 (1/2) (by norm_num)
    (by simp only [List.mem_singleton, forall_eq]; exact minimizes) [0] [1] [1] [2] (.cons (by norm_num) .nil) (.cons (by norm_num) .nil) rfl rfl
  refine ⟨n, tube, h1, h2, h3, fun k hk => ?_⟩
  obtain ⟨l, u, g1, g2, g3, -⟩ := h4 (fun k => [1/2 + 1/2 * (k : ℚ)]) (fun _ => [1]) ⟨.cons (by norm_num) .nil, .cons (by norm_num) .nil⟩
    (fun _ => ⟨.cons (by norm_num) .nil, .cons (by norm_num) .nil⟩) (fun k => by
      show some [1/2 + 1/2 * (k : ℚ) + 1/2 * 1] = _
      push_cast
      congr 2
      ring) k hk
  exact ⟨l, u, g1, g2, g3⟩

end MixTEx

/-! ### Other forms -/

/-- The minimum on a single point is the value there. -/
def AtPoints (T : Tools ℚ) : Prop := ∀ g z, T.minimize g z z = g z

theorem computeD_point {T : Tools ℚ} (hT : Lawful T) (hpt : AtPoints T) {xs : List String} (hn : xs.Nodup) {exprs : List (Ex ℚ)}
    (hu : ∀ e ∈ exprs, ∀ n ∈ names e, n ∈ xs) (x : List ℚ) (hx : x.length = xs.length) :
    computeD T xs [] exprs x [] x [] = .ok (exprs.map fun e => val (envOf xs x) e) := by
  obtain ⟨D, d1, d2⟩ := ranges_ok (ws := []) (w := []) (what := []) hx hx rfl rfl (by simpa using hn)
  simp only [List.append_nil] at d2
  refine mapM_of_ok _ _ _ fun e he => ?_
  rw [if_pos (by rw [allLe_of (List.forall₂_same.2 fun _ _ => le_refl _)]; rfl), d1]
  show findMin T e D = _
  rw [findMin_ok hT (hu e he) d2, hpt, lambdify_at (T.symbols e) e _ fun n hn => (hT.all e n).2 hn]

/-- ```
dt, = args
a, b = x
"""Begin Dynamic"""
b_plus = b + 1
a_plus = a
"""End Dynamic"""
return [a_plus, b_plus]
``` -/
def otherOrder : List (Stmt ℚ) := [.unpack ["dt"] (.var "args"), .unpack ["a", "b"] (.var "x"), .text "Begin Dynamic", .assign "b_plus" (.add (.var "b") (.num 1)),
  .assign "a_plus" (.var "a"), .text "End Dynamic", .ret [.var "a_plus", .var "b_plus"]]

/-- **C98** is violated when the variables are not assigned in the order of the state, although they are returned in this order: from (0, 0) the second
state is (0, 1), but the second rectangle has the first variable between 1 and 1. -/
theorem C98_order_violated (T : Tools ℚ) (hT : Lawful T) (hpt : AtPoints T) :
    (∀ a b dt : ℚ, call otherOrder [a, b] [dt] = some [a, b + 1]) ∧
    tubeText T otherOrder [0, 0] [0, 0] [] [] 2 1 = .ok [(0, [0, 0]), (1, [1, 0]), (1, [1, 0]), (2, [1, 1])] ∧ ¬ InBox [(1 : ℚ), 0] [1, 1] [0, 1] := by
  refine ⟨fun a b dt => rfl, ?_, ?_⟩
  · have hx : extract otherOrder = .ok ⟨true, [.add (.var "b") (.num 1), .var "a"], ["a", "b"], []⟩ := by decide +kernel
    have hc : ∀ p q : ℚ, computeD T ["a", "b"] [] [subst "dt" 1 (T.sym (.add (.var "b") (.num 1))), subst "dt" 1 (T.sym (.var "a"))] [p, q] [] [p, q] [] = .ok [q + 1, p] := by
      intro p q
      rw [computeD_point hT hpt (by decide) ?_ _ rfl]
      · simp only [List.map_cons, List.map_nil, val_subst]
        rw [hT.same (.add (.var "b") (.num 1)) _ (q + 1) rfl, hT.same (.var "a") _ p rfl]
      · intro e he n hn
        simp only [List.mem_cons, List.not_mem_nil, or_false] at he
        rcases he with rfl | rfl
        · have := hT.fewer _ _ (names_subst _ _ _ _ hn).1
          simp [names] at this
          simp [this]
        · have := hT.fewer _ _ (names_subst _ _ _ _ hn).1
          simp [names] at this
          simp [this]
    unfold tubeText
    rw [hx]
    show tubeDisc _ _ _ _ _ _ (computeD T ["a", "b"] [] [subst "dt" 1 (T.sym (.add (.var "b") (.num 1))), subst "dt" 1 (T.sym (.var "a"))]) = _
    generalize computeD T ["a", "b"] [] [subst "dt" 1 (T.sym (.add (.var "b") (.num 1))), subst "dt" 1 (T.sym (.var "a"))] = dec at hc
    have h2 : ⌈(2 : ℚ) / 1⌉.toNat = 2 := by norm_num; rfl
    unfold tubeDisc
    rw [h2]
    have c1 : dec [0, 0] [] [0, 0] [] = .ok [1, 0] := by rw [hc]; norm_num
    have c2 : dec [1, 0] [] [1, 0] [] = .ok [1, 1] := by rw [hc]; norm_num
    simp [traceLoop, stepRow, cut, c1, c2, Except.bind, Except.map, tubeOf, rectOf, reduce4]
    norm_num
  · rintro ⟨h, -⟩
    cases h with
    | cons h _ => norm_num at h

/-- ```
dt, = args
a, = x
"""Begin Dynamic"""
a_plus = a
a_plus += dt
"""End Dynamic"""
return [a_plus]
``` -/
def withAug : List (Stmt ℚ) := [.unpack ["dt"] (.var "args"), .unpack ["a"] (.var "x"), .text "Begin Dynamic", .assign "a_plus" (.var "a"),
  .aug "a_plus" (.var "dt"), .text "End Dynamic", .ret [.var "a_plus"]]

/-- **C98** is violated when a value is changed by `+=`, which is ignored: the state grows by the time step, but is constant in the tube. -/
theorem C98_aug_violated (T : Tools ℚ) (hT : Lawful T) (hpt : AtPoints T) :
    (∀ a dt : ℚ, call withAug [a] [dt] = some [a + dt]) ∧ tubeText T withAug [0] [0] [] [] 1 1 = .ok [(0, [0]), (1, [0])] ∧ ¬ InBox [(0 : ℚ)] [0] [1] := by
  refine ⟨fun a dt => rfl, ?_, ?_⟩
  · have hx : extract withAug = .ok ⟨true, [.var "a"], ["a"], []⟩ := by decide +kernel
    have hc : ∀ p : ℚ, computeD T ["a"] [] [subst "dt" 1 (T.sym (.var "a"))] [p] [] [p] [] = .ok [p] := by
      intro p
      rw [computeD_point hT hpt (by decide) ?_ _ rfl]
      · simp only [List.map_cons, List.map_nil, val_subst]
        rw [hT.same (.var "a") _ p rfl]
      · intro e he n hn
        simp only [List.mem_cons, List.not_mem_nil, or_false] at he
        subst he
        have := hT.fewer _ _ (names_subst _ _ _ _ hn).1
        simp [names] at this
        simp [this]
    unfold tubeText
    rw [hx]
    show tubeDisc _ _ _ _ _ _ (computeD T ["a"] [] [subst "dt" 1 (T.sym (.var "a"))]) = _
    generalize computeD T ["a"] [] [subst "dt" 1 (T.sym (.var "a"))] = dec at hc
    have h2 : ⌈(1 : ℚ) / 1⌉.toNat = 1 := by norm_num
    unfold tubeDisc
    rw [h2]
    simp [traceLoop, stepRow, cut, hc, Except.bind, Except.map, tubeOf, rectOf, reduce4]
  · rintro ⟨-, h⟩
    cases h with
    | cons h _ => norm_num at h

/-- ```
dt, = args
a, = x
"""Begin Dynamic"""
a_plus = a
"""End Dynamic"""
res = a_plus
return [res]
``` -/
def afterEnd : List (Stmt ℚ) := [.unpack ["dt"] (.var "args"), .unpack ["a"] (.var "x"), .text "Begin Dynamic", .assign "a_plus" (.var "a"),
  .text "End Dynamic", .assign "res" (.var "a_plus"), .ret [.var "res"]]

/-- **C98** is violated when there are assignments after "End Dynamic", which has no effect: no tube is computed. -/
theorem C98_end_violated (T : Tools ℚ) (lo hi w what : List ℚ) (horizon dt : ℚ) :
    (∀ a dt : ℚ, call afterEnd [a] [dt] = some [a]) ∧ tubeText T afterEnd lo hi w what horizon dt = .error "ValueError" := ⟨fun _ _ => rfl, rfl⟩

/-- ```
dt, = args
a, = x
k = 2
"""Begin Dynamic"""
a_plus = k * a
"""End Dynamic"""
return [a_plus]
``` -/
def constBefore : List (Stmt ℚ) := [.unpack ["dt"] (.var "args"), .unpack ["a"] (.var "x"), .assign "k" (.num 2), .text "Begin Dynamic",
  .assign "a_plus" (.mul (.var "k") (.var "a")), .text "End Dynamic", .ret [.var "a_plus"]]

/-- **C98** is violated when a constant is set before "Begin Dynamic": no tube is computed. -/
theorem C98_before_violated (T : Tools ℚ) (lo hi w what : List ℚ) (horizon dt : ℚ) :
    (∀ a dt : ℚ, call constBefore [a] [dt] = some [2 * a]) ∧ tubeText T constBefore lo hi w what horizon dt = .error "AttributeError" := ⟨fun _ _ => rfl, rfl⟩

/-- ```
h, = args
a, = x
"""Begin Dynamic"""
a_plus = a + h
"""End Dynamic"""
return [a_plus]
``` -/
def otherStep : List (Stmt ℚ) := [.unpack ["h"] (.var "args"), .unpack ["a"] (.var "x"), .text "Begin Dynamic", .assign "a_plus" (.add (.var "a") (.var "h")),
  .text "End Dynamic", .ret [.var "a_plus"]]

theorem mapM_not_ok {α β : Type} (f : α → Except String β) (l : List α) (a : α) (ha : a ∈ l) (h : ∀ b, f a ≠ .ok b) (r : List β) : l.mapM f ≠ .ok r := by
  intro e
  rw [mapM_ok_iff] at e
  obtain ⟨b, -, hb⟩ := forall₂_mem_left e ha
  exact h b hb

/-- **C98** is violated when the time step has another name than `dt`: no tube is computed. -/
theorem C98_dt_violated (T : Tools ℚ) (hT : Lawful T) (p q : ℚ) (hpq : p ≤ q) (horizon : ℚ) (hh : 0 < horizon) :
    (∀ a dt : ℚ, call otherStep [a] [dt] = some [a + dt]) ∧ ∀ tube, tubeText T otherStep [p] [q] [] [] horizon 1 ≠ .ok tube := by
  refine ⟨fun _ _ => rfl, fun tube h => ?_⟩
  have hx : extract otherStep = .ok ⟨true, [.add (.var "a") (.var "h")], ["a"], []⟩ := by decide +kernel
  unfold tubeText at h
  rw [hx] at h
  have hs : "h" ∈ T.symbols (subst "dt" 1 (T.sym (.add (.var "a") (.var "h")))) := by
    rw [hT.all]
    by_contra hc
    have h0 := val_congr (fun _ => (0 : ℚ)) (fun n => if n = "h" then 1 else 0) (subst "dt" 1 (T.sym (.add (.var "a") (.var "h")))) fun n hn => by
      have : n ≠ "h" := fun e => hc (e ▸ hn)
      simp [this]
    simp only [val_subst] at h0
    rw [hT.same (.add (.var "a") (.var "h")) _ 0 (by simp [eval]), hT.same (.add (.var "a") (.var "h")) _ 1 (by simp [eval])] at h0
    norm_num at h0
  have hc : ∀ r, computeD T ["a"] [] [subst "dt" 1 (T.sym (.add (.var "a") (.var "h")))] [p] [] [q] [] ≠ .ok r := by
    intro r
    unfold computeD
    refine mapM_not_ok _ _ _ (List.mem_singleton_self _) (fun b hb => ?_) r
    rw [if_pos (by simp [allLe, hpq])] at hb
    obtain ⟨D, hD, hb⟩ := (bind_ok_iff _ _ _).1 hb
    obtain ⟨rs, hrs, -⟩ := (map_ok_iff _ _ _).1 hb
    refine mapM_not_ok _ _ "h" hs (fun b hb => ?_) rs hrs
    have : D = [("a", (p, q))] := (Except.ok.inj hD).symm
    subst this
    have : rangeOf [("a", (p, q))] "h" = .error "KeyError" := rfl
    rw [this] at hb
    cases hb
  obtain ⟨s, h0, h⟩ := (bind_ok_iff _ _ _).1 h
  cases h0
  obtain ⟨rows, h1, -⟩ := (bind_ok_iff _ _ _).1 h
  have hn : 0 < ⌈horizon / 1⌉.toNat := by
    have := Int.ceil_pos.2 (show 0 < horizon / 1 by simpa using hh)
    omega
  obtain ⟨m, hm⟩ := Nat.exists_eq_succ_of_ne_zero hn.ne'
  rw [hm] at h1
  obtain ⟨r, h2, -⟩ := (bind_ok_iff _ _ _).1 h1
  obtain ⟨d, h3, -⟩ := (bind_ok_iff _ _ _).1 h2
  exact hc d h3

/-- ```
dt, = args
a, b = x
"""Begin Dynamic"""
a_plus = 2 * a
b_plus = a_plus + b
"""End Dynamic"""
return [a_plus, b_plus]
``` -/
def usesNew : List (Stmt ℚ) := [.unpack ["dt"] (.var "args"), .unpack ["a", "b"] (.var "x"), .text "Begin Dynamic", .assign "a_plus" (.mul (.num 2) (.var "a")),
  .assign "b_plus" (.add (.var "a_plus") (.var "b")), .text "End Dynamic", .ret [.var "a_plus", .var "b_plus"]]

/-- **C98** is violated when an assignment uses the result of another one: no tube is computed. -/
theorem C98_names_violated (T : Tools ℚ) (hT : Lawful T) (p q p' q' : ℚ) (hpq : p ≤ q) (hpq' : p' ≤ q') (horizon : ℚ) (hh : 0 < horizon) :
    (∀ a b dt : ℚ, call usesNew [a, b] [dt] = some [2 * a, 2 * a + b]) ∧ ∀ tube, tubeText T usesNew [p, p'] [q, q'] [] [] horizon 1 ≠ .ok tube := by
  refine ⟨fun _ _ _ => rfl, fun tube h => ?_⟩
  have hx : extract usesNew = .ok ⟨true, [.mul (.num 2) (.var "a"), .add (.var "a_plus") (.var "b")], ["a", "b"], []⟩ := by decide +kernel
  unfold tubeText at h
  rw [hx] at h
  have hs : "a_plus" ∈ T.symbols (subst "dt" 1 (T.sym (.add (.var "a_plus") (.var "b")))) := by
    rw [hT.all]
    by_contra hc
    have h0 := val_congr (fun _ => (0 : ℚ)) (fun n => if n = "a_plus" then 1 else 0) (subst "dt" 1 (T.sym (.add (.var "a_plus") (.var "b")))) fun n hn => by
      have : n ≠ "a_plus" := fun e => hc (e ▸ hn)
      simp [this]
    simp only [val_subst] at h0
    rw [hT.same (.add (.var "a_plus") (.var "b")) _ 0 (by simp [eval]), hT.same (.add (.var "a_plus") (.var "b")) _ 1 (by simp [eval])] at h0
    norm_num at h0
  have hc : ∀ r, computeD T ["a", "b"] [] [subst "dt" 1 (T.sym (.mul (.num 2) (.var "a"))), subst "dt" 1 (T.sym (.add (.var "a_plus") (.var "b")))] [p, p'] [] [q, q'] [] ≠ .ok r := by
    intro r
    unfold computeD
    refine mapM_not_ok _ _ (subst "dt" 1 (T.sym (.add (.var "a_plus") (.var "b")))) (by simp) (fun b hb => ?_) r
    rw [if_pos (by simp [allLe, hpq, hpq'])] at hb
    obtain ⟨D, hD, hb⟩ := (bind_ok_iff _ _ _).1 hb
    obtain ⟨rs, hrs, -⟩ := (map_ok_iff _ _ _).1 hb
    refine mapM_not_ok _ _ "a_plus" hs (fun b hb => ?_) rs hrs
    have : D = [("a", (p, q)), ("b", (p', q'))] := (Except.ok.inj hD).symm
    subst this
    have : rangeOf [("a", (p, q)), ("b", (p', q'))] "a_plus" = .error "KeyError" := rfl
    rw [this] at hb
    cases hb
  obtain ⟨s, h0, h⟩ := (bind_ok_iff _ _ _).1 h
  cases h0
  obtain ⟨rows, h1, -⟩ := (bind_ok_iff _ _ _).1 h
  have hn : 0 < ⌈horizon / 1⌉.toNat := by
    have := Int.ceil_pos.2 (show 0 < horizon / 1 by simpa using hh)
    omega
  obtain ⟨m, hm⟩ := Nat.exists_eq_succ_of_ne_zero hn.ne'
  rw [hm] at h1
  obtain ⟨r, h2, -⟩ := (bind_ok_iff _ _ _).1 h1
  obtain ⟨d, h3, -⟩ := (bind_ok_iff _ _ _).1 h2
  exact hc d h3

/-- The hypotheses of the theorems about other forms are met. -/
example : Lawful MixTEx.T ∧ AtPoints MixTEx.T := by
  refine ⟨MixTEx.lawful, fun g z => ?_⟩
  show MixTEx.minimize g z z = g z
  unfold MixTEx.minimize
  have h : ∃ y, InBox z z y ∧ ∀ u, InBox z z u → g y ≤ g u :=
    ⟨z, ⟨List.forall₂_same.2 fun _ _ => le_refl _, List.forall₂_same.2 fun _ _ => le_refl _⟩, fun u hu => by rw [← forall₂_antisymm hu.1 hu.2]⟩
  rw [dif_pos h]
  have h1 := h.choose_spec.1
  exact congrArg g (forall₂_antisymm h1.1 h1.2).symm

end Verif.Props
