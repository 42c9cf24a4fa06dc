import Verif.Proofs.Parser8
import Verif.Props.ParserWitness

/-! C13–C18: what the parser extracts from decision logic means what Python would do. -/

set_option autoImplicit false

namespace Verif.Props

open Verif.Py

variable {V : Type} [DecidableEq V]

/-- **C13** (partial). Whenever running the decision logic as a Python program succeeds, every variable of the returned state
has its old value or the value of an extracted transition for this variable whose guard holds now. Restrictions: the naming
discipline `WellNamed`; no unconditional assignment to the output; no `if` that gives a variable the same new value in both
branches (see the violations below). -/
theorem C13_extraction_covers_partial {P : PyOps V} (hP : P.Lawful) {tt : V} (htt : P.truth tt = true) {ν : Store V} {N : Names}
    {env : Env V} {D : Logic V} {attrs : List String} (hD : D.WellNamed P ν N env attrs)
    (hcond : D.rest.all (notTop D.out) = true) (hn : D.noTwin P.zero env = true) {ir : IR V}
    (hir : extract P.zero tt env D.params D.body D.out = .ok ir) (args : List V) {σ' : Store V}
    (hrun : execs P (D.start ν args) D.body = .ok σ') :
    ∀ a ∈ attrs, P.getattr (σ' D.out) a = P.getattr (D.start ν args D.ego) a ∨
      ∃ p ∈ ir.paths, p.var = a ∧ P.truth (eval P (D.start ν args) p.cond) = true ∧
        eval P (D.start ν args) p.val = P.getattr (σ' D.out) a := by
  obtain ⟨e1, e2, d, st, -, hd, h0, honly, hpaths, -⟩ := logic_ok hP hD hn hir args
  have hσ : σ' = runs P (D.start ν args) D.body := by
    rw [execs_eq] at hrun
    split at hrun
    · cases hrun
    · injection hrun with h; exact h.symm
  subst hσ
  intro a ha
  obtain ⟨d0, h1, h2⟩ := h0 a ha
  have hper : ∃ c', Dict.get? d a = some c' ∧ Dflt c' := by
    rcases st.persist.obj _ _ h1 with ⟨d', h3, h4⟩ | ⟨c', h3, -⟩
    · rw [hd] at h3; cases h3
      exact h4 a _ h2 (dflt_ast _)
    · rw [hd] at h3; cases h3
  obtain ⟨c, hc, hdf⟩ := hper
  obtain ⟨k, hk, hkr⟩ := (st.inv.objs _ d a c hd hc).1 hdf
  by_cases hk0 : k.conds = []
  · left
    have hval := honly hcond d a c k hd hc hk hk0
    rcases hkr with hkr | hkr
    · rcases hkr with ⟨e, he, -⟩ | hop
      · rw [hk0] at he; cases he
      · rw [hval] at hop; simp [hasOpaque] at hop
    · rw [← hkr.2, hval]; rfl
  · right
    cases c with
    | ast e =>
      simp only [Cell.asCases, List.mem_singleton] at hk
      subst hk; exact absurd rfl hk0
    | cond cs =>
      obtain ⟨o1, o2, hp⟩ := hpaths a cs k hc hk hk0
      rw [mergeConds_opq] at o1
      have hno : ¬ CaseOpq k := by
        rintro (⟨e, he, ho⟩ | ho)
        · have := List.any_eq_false.1 o1 e he
          exact this ho
        · rw [o2] at ho; cases ho
      have hh := hkr.resolve_left hno
      refine ⟨_, hp, rfl, ?_, hh.2⟩
      rw [mergeConds_truth hP htt]
      exact List.all_eq_true.2 hh.1

/-- The hypotheses of C13 are met by a decision logic with a helper, a local variable, nested branches and `any`; the run below
takes the transition. -/
example : ((extract Wit.ops.zero (Wit.W.num 1) Wit.env1 Wit.D.params Wit.D.body Wit.D.out).map
      (fun ir => (ir.paths.length, ir.asserts.length))) = .ok (2, 1) ∧ Wit.ops.Lawful ∧
    Wit.D.rest.all (notTop Wit.D.out) = true ∧ Wit.D.noTwin Wit.ops.zero Wit.env1 = true ∧
    Wit.D.WellNamed Wit.ops Wit.ν Wit.N1 Wit.env1 ["x", "m", "y"] := by
  refine ⟨by decide +kernel, Wit.lawful, by decide +kernel, Wit.noTwin, Wit.wellNamed⟩

example : (execs Wit.ops (Wit.D.start Wit.ν [.set (.set (.num 0) "x" (.num 3)) "m" (.str "A"),
    .cons (.set (.num 0) "x" (.num 7)) .nil]) Wit.D.body).map (fun σ => Wit.getattr (σ "out") "m") = .ok (.str "B") := by
  decide +kernel

/-- A logic over the witness universe with the given statements after `out = copy.deepcopy(ego)`. -/
def witLogic (rest : List (Stmt Wit.W)) : Logic Wit.W := { Wit.D with rest := rest }

/-- the value of an attribute of the result when the logic is run on `ego` without others -/
def witRun (rest : List (Stmt Wit.W)) (ego : Wit.W) (a : String) : Except Unit Wit.W :=
  (execs Wit.ops ((witLogic rest).start Wit.ν [ego, .nil]) (witLogic rest).body).map (fun σ => Wit.getattr (σ "out") a)

/-- what is extracted -/
def witExtract (rest : List (Stmt Wit.W)) : Except String (IR Wit.W) :=
  extract Wit.ops.zero (Wit.W.num 1) Wit.env1 (witLogic rest).params (witLogic rest).body (witLogic rest).out

/-- `x op y` as an expression on an attribute of `ego` and a number -/
private def egoCmp (a op : String) (n : Int) : Expr Wit.W := .compare (.attr (.name "ego") a) (.cons op (.const (.num n)) .nil)

/-- **C13 is violated** by an unconditional assignment: `out = copy.deepcopy(ego); out.m = 5; return out` sets `m` to 5, and no
transition is extracted. -/
theorem C13_unconditional_assignment_violated :
    witRun [.setattr "out" "m" (.const (.num 5))] (.set (.num 0) "m" (.num 1)) "m" = .ok (.num 5) ∧
    witExtract [.setattr "out" "m" (.const (.num 5))] = .ok ⟨[], []⟩ := by
  constructor <;> decide +kernel

/-- **C13 is violated** when both branches assign the same value: `if ego.x > 2: out.m = 5 else: out.m = 5` sets `m` to 5, and
no transition is extracted. -/
theorem C13_same_value_in_both_branches_violated :
    witRun [.ite (egoCmp "x" ">" 2) [.setattr "out" "m" (.const (.num 5))] [.setattr "out" "m" (.const (.num 5))]]
      (.set (.num 0) "m" (.num 1)) "m" = .ok (.num 5) ∧
    witExtract [.ite (egoCmp "x" ">" 2) [.setattr "out" "m" (.const (.num 5))] [.setattr "out" "m" (.const (.num 5))]] =
      .ok ⟨[], []⟩ := by
  constructor <;> decide +kernel

/-- **C14** (partial). The run of the decision logic stops with an assertion failure iff one of the extracted assertions has a true
path condition and a false condition. Restrictions as in C13, but unconditional assignments to the output are allowed. -/
theorem C14_asserts_partial {P : PyOps V} (hP : P.Lawful) {tt : V} (htt : P.truth tt = true) {ν : Store V} {N : Names}
    {env : Env V} {D : Logic V} {attrs : List String} (hD : D.WellNamed P ν N env attrs)
    (hn : D.noTwin P.zero env = true) {ir : IR V}
    (hir : extract P.zero tt env D.params D.body D.out = .ok ir) (args : List V) :
    execs P (D.start ν args) D.body = .error () ↔
      ∃ a ∈ ir.asserts, P.truth (eval P (D.start ν args) a.pre) = true ∧ P.truth (eval P (D.start ν args) a.cond) = false := by
  obtain ⟨e1, e2, d, st, he1, -, -, -, -, hcomp, h1, h2⟩ := logic_ok hP hD hn hir args
  obtain ⟨new, hperm, hnew⟩ := st.asserts
  rw [he1, List.map_nil, List.append_nil] at hperm
  have hmem : ∀ k, k ∈ new ↔ ∃ x ∈ e2.asserts, x.key = k := by
    intro k; rw [← hperm.mem_iff]; simp
  have hno : ∀ k ∈ new, ¬ KeyOpq k := by
    intro k hk
    obtain ⟨x, hx, rfl⟩ := (hmem k).1 hk
    obtain ⟨c1, c2⟩ := hcomp x hx
    rw [mergeConds_opq] at c2
    rintro (⟨p, hp, ho⟩ | ho)
    · exact (List.any_eq_false.1 c2 p hp) ho
    · simp only [PAssert.key] at ho; rw [c1] at ho; cases ho
  have hfail := hnew hno
  have hex : execs P (D.start ν args) D.body = .error () ↔ failss P (D.start ν args) D.body = true := by
    rw [execs_eq]
    split
    · rename_i h; simp [h]
    · rename_i h; simp [h]
  rw [hex, hfail]
  constructor
  · rintro ⟨k, hk, hkf⟩
    obtain ⟨x, hx, rfl⟩ := (hmem k).1 hk
    obtain ⟨y, hy, hy1, hy2⟩ := h1 x hx
    refine ⟨y, hy, ?_, by rw [hy1]; exact hkf.2⟩
    rw [hy2, mergeConds_truth hP htt]
    exact List.all_eq_true.2 hkf.1
  · rintro ⟨y, hy, hy1, hy2⟩
    obtain ⟨x, hx, hx1, hx2⟩ := h2 y hy
    refine ⟨x.key, (hmem _).2 ⟨x, hx, rfl⟩, ?_, by rw [hx1] at hy2; exact hy2⟩
    rw [hx2, mergeConds_truth hP htt] at hy1
    exact List.all_eq_true.1 hy1

/-- A run of the witness logic that stops at its assertion. -/
example : execs Wit.ops (Wit.D.start Wit.ν [.set (.num 0) "x" (.num 12), .nil]) Wit.D.body = .error () := by rfl

/-- **C14 is violated** after an `if` that assigns the same value in both branches: with
`t = 1; if ego.x > 2: t = 2 else: t = 2; assert t == 2` the run never fails, but the extracted assertion is `1 == 2`. -/
theorem C14_same_value_in_both_branches_violated :
    witRun [.assign "t" (.const (.num 1)),
        .ite (egoCmp "x" ">" 2) [.assign "t" (.const (.num 2))] [.assign "t" (.const (.num 2))],
        .assert (.compare (.name "t") (.cons "==" (.const (.num 2)) .nil)) (some "t is 2")]
      (.set (.num 0) "x" (.num 0)) "x" = .ok (.num 0) ∧
    witExtract [.assign "t" (.const (.num 1)),
        .ite (egoCmp "x" ">" 2) [.assign "t" (.const (.num 2))] [.assign "t" (.const (.num 2))],
        .assert (.compare (.name "t") (.cons "==" (.const (.num 2)) .nil)) (some "t is 2")] =
      .ok ⟨[], [⟨.compare (.const (.num 1)) (.cons "==" (.const (.num 2)) .nil), "t is 2", .const (.num 1)⟩]⟩ := by
  constructor <;> decide +kernel

omit [DecidableEq V] in
/-- **C15**. A comparison chain `l op₁ e₁ op₂ e₂ …` is analysed to an expression that is true iff every comparison of
neighbouring operands is: `evalCmps` compares each operand with the next one. The operands are the analysed operands. -/
theorem C15_chained_comparison {env env' : Env V} {zero : V} {l : Expr V} {rest : Cmps V} {sv : Option (SV V)}
    (h : procV zero env (.compare l rest) = .ok (sv, env')) :
    ∃ v vs env1 e, procC zero env rest = .ok (vs, env1) ∧ procV zero env1 l = .ok (v, env') ∧ sv = some (.cell (.ast e)) ∧
      ∀ (P : PyOps V), P.Lawful → ∀ σ : Store V, eval P σ e = P.ofBool (evalCmps P σ (eval P σ (toExpr v)) vs) := by
  rw [procV] at h
  obtain ⟨⟨vs, env1⟩, h1, h2⟩ := (bind_ok_iff ..).1 h
  obtain ⟨⟨v, env2⟩, h3, h4⟩ := (bind_ok_iff ..).1 h2
  obtain ⟨rfl, rfl⟩ := pair_ok h4
  exact ⟨v, vs, env1, _, h1, h3, rfl, fun P hP σ => eval_mkCompare hP σ _ _⟩

/-- `0 < ego.x < 9` becomes `0 < ego.x and ego.x < 9`. -/
example : (witExtract [.assert (.compare (.const (.num 0)) (.cons "<" (.attr (.name "ego") "x") (.cons "<" (.const (.num 9)) .nil)))
      none]).map (fun ir => ir.asserts.map (fun a => a.cond)) =
    .ok [.boolop .and (.cons (.compare (.const (.num 0)) (.cons "<" (.attr (.hole "ego" (some "State")) "x") .nil))
      (.cons (.compare (.attr (.hole "ego" (some "State")) "x") (.cons "<" (.const (.num 9)) .nil)) .nil))] := by
  decide +kernel

omit [DecidableEq V] in
/-- **C17 / C18** (partial). In a module of inputs and helper functions, the analysis of an expression that respects the naming
discipline (comprehension variables are used for nothing else; helpers are called with the right number of arguments, do not
use their parameters in filters or conditional expressions) either cannot be compiled or has the value Python gives it; and the
environment is what it was, so nothing leaks out of a comprehension or a call. -/
theorem C17_names_scoped_as_in_python_partial {P : PyOps V} (hP : P.Lawful) {ν : Store V} {N : Names} {env env' : Env V}
    (hM : Module P ν N env) {ps : List (String × Option String)} (hps : ParamNames N (ps.map Prod.fst)) {e : Expr V}
    (hs : Static (N.params (ps.map Prod.fst)) e) {sv : Option (SV V)}
    (h : procV P.zero (ps.foldl (fun (e : Env V) p => e.addHole p.1 p.2) { env with asserts := [] }) e = .ok (sv, env'))
    (args : List V) :
    (hasOpaque (toExpr sv) = true ∨
      eval P (updMany ν (ps.map Prod.fst) args) (toExpr sv) = eval P (updMany ν (ps.map Prod.fst) args) e) ∧
    env' = ps.foldl (fun (e : Env V) p => e.addHole p.1 p.2) { env with asserts := [] } := by
  have hI := ((module_ok hP hM).inv (updMany ν (ps.map Prod.fst) args)
    (fun n hn => updMany_out _ _ _ _ (fun hm => hn (hps.fresh n hm)))).params hps
  obtain ⟨h1, h2⟩ := procV_ok hP e hs hI h
  exact ⟨h2.toExpr.1, h1⟩

omit [DecidableEq V] in
/-- **C16** (partial: the unrolling of reductions in guards is in the guard model). `any`/`all`/`sum` with filters mean, after
the analysis, what Python's built-ins mean: the value is the reduction of the element over the members that pass the filters, for
every list, the empty one included. -/
theorem C16_reduction_filters_partial {P : PyOps V} (hP : P.Lawful) {ν : Store V} {N : Names} {env env' : Env V}
    (hM : Module P ν N env) {ps : List (String × Option String)} (hps : ParamNames N (ps.map Prod.fst)) {op : RedOp}
    {elt : Expr V} {x : String} {iter : Expr V} {ifs : Exprs V}
    (hs : Static (N.params (ps.map Prod.fst)) (.gen op elt x iter ifs)) {sv : Option (SV V)}
    (h : procV P.zero (ps.foldl (fun (e : Env V) p => e.addHole p.1 p.2) { env with asserts := [] }) (.gen op elt x iter ifs) =
      .ok (sv, env')) (args : List V) :
    hasOpaque (toExpr sv) = true ∨ ∀ σ : Store V, σ = updMany ν (ps.map Prod.fst) args →
      eval P σ (toExpr sv) =
        reduce P op (((P.iter (eval P σ iter)).filter (fun v => evalAll P (upd σ x v) ifs)).map (fun v => eval P (upd σ x v) elt)) :=
  (C17_names_scoped_as_in_python_partial hP hM hps hs h args).1.imp_right (fun h σ hσ => by subst hσ; exact h)

/-- `any(o.x > 1 for o in others if o.y == 0)` in the witness module is a case. -/
example : (procV Wit.ops.zero (Wit.D.params.foldl (fun (e : Env Wit.W) p => e.addHole p.1 p.2) { Wit.env1 with asserts := [] })
      (.gen .any (.compare (.attr (.name "o") "x") (.cons ">" (.const (.num 1)) .nil)) "o" (.name "others")
        (.cons (.compare (.attr (.name "o") "y") (.cons "==" (.const (.num 0)) .nil)) .nil))).map (fun r => hasOpaque (toExpr r.1)) =
    .ok false := by decide +kernel

omit [DecidableEq V] in
/-- **C18** (partial). Inlining a helper preserves its meaning: the analysed call evaluates to what the function returns on the
values of the arguments. -/
theorem C18_inlining_preserves_meaning_partial {P : PyOps V} (hP : P.Lawful) {ν : Store V} {N : Names} {env env' : Env V}
    (hM : Module P ν N env) {ps : List (String × Option String)} (hps : ParamNames N (ps.map Prod.fst)) {f : String}
    {as : Exprs V} (hs : Static (N.params (ps.map Prod.fst)) (.call f as)) {sv : Option (SV V)}
    (h : procV P.zero (ps.foldl (fun (e : Env V) p => e.addHole p.1 p.2) { env with asserts := [] }) (.call f as) =
      .ok (sv, env')) (args : List V) :
    hasOpaque (toExpr sv) = true ∨
      eval P (updMany ν (ps.map Prod.fst) args) (toExpr sv) =
        P.call (updMany ν (ps.map Prod.fst) args f) "" (evalList P (updMany ν (ps.map Prod.fst) args) as) :=
  (C17_names_scoped_as_in_python_partial hP hM hps hs h args).1

/-- The witness module has a helper, `far`, and its call in the witness logic is covered: it is replaced by `ego.x > 1`. -/
example : Module Wit.ops Wit.ν Wit.N1 Wit.env1 ∧
    (procV Wit.ops.zero (Wit.D.params.foldl (fun (e : Env Wit.W) p => e.addHole p.1 p.2) { Wit.env1 with asserts := [] })
      (.call "far" (.cons (.attr (.name "ego") "x") .nil))).map (fun r => toExpr r.1) =
    .ok (.compare (.attr (.hole "ego" (some "State")) "x") (.cons ">" (.const (.num 1)) .nil)) :=
  ⟨Wit.module1, by decide +kernel⟩

/-- **C17 is violated**: a comprehension variable overwrites an outer variable of the same name. In
`o = 5; if any(o.x > 2 for o in others): pass; if o == 5: out.m = 1` the run sets `m` to 1; the guard extracted for it compares the
comprehension variable `o`, not 5. -/
theorem C17_comprehension_variable_leaks_violated :
    witRun [.assign "o" (.const (.num 5)),
        .ite (.gen .any (.compare (.attr (.name "o") "x") (.cons ">" (.const (.num 2)) .nil)) "o" (.name "others") .nil) [] [],
        .ite (.compare (.name "o") (.cons "==" (.const (.num 5)) .nil)) [.setattr "out" "m" (.const (.num 1))] []]
      (.num 0) "m" = .ok (.num 1) ∧
    (witExtract [.assign "o" (.const (.num 5)),
        .ite (.gen .any (.compare (.attr (.name "o") "x") (.cons ">" (.const (.num 2)) .nil)) "o" (.name "others") .nil) [] [],
        .ite (.compare (.name "o") (.cons "==" (.const (.num 5)) .nil)) [.setattr "out" "m" (.const (.num 1))] []]).map
        (fun ir => ir.paths.map (fun p => p.cond)) =
      .ok [.compare (.hole "o" none) (.cons "==" (.const (.num 5)) .nil)] := by
  constructor <;> decide +kernel

/-- `lambda p: any(o.x > p for o in others)`, analysed in the witness module -/
def capLam : Except String (Lam Wit.W) :=
  (lamFromAst Wit.ops.zero (Wit.env1.addHole "others" none) [("p", none)]
    (.gen .any (.compare (.attr (.name "o") "x") (.cons ">" (.name "p") .nil)) "o" (.name "others") .nil)).map Prod.fst

/-- **C18 is violated**: an argument that mentions a name the helper uses as comprehension variable is captured. With `f` as above and
an outer input `o`, the call `f(o.x)` is inlined as `any(o.x > o.x for o in others)`, which is false for every list, whereas
`f(o.x)` asks whether some other has a larger `x`. -/
theorem C18_argument_captured_violated :
    (capLam.map (fun l => (l.apply [.attr (.hole "o" none) "x"]).2)) =
      .ok (.red .any (.compare (.attr (.hole "o" none) "x") (.cons ">" (.attr (.hole "o" none) "x") .nil)) "o" (.hole "others" none)) ∧
    Wit.truth (eval Wit.ops (upd (upd Wit.ν "o" (.set (.num 0) "x" (.num 1))) "others" (.cons (.set (.num 0) "x" (.num 2)) .nil))
      (.red .any (.compare (.attr (.hole "o" none) "x") (.cons ">" (.attr (.hole "o" none) "x") .nil)) "o" (.hole "others" none))) =
      false ∧
    Wit.truth (eval Wit.ops (updMany (upd (upd Wit.ν "o" (.set (.num 0) "x" (.num 1))) "others"
        (.cons (.set (.num 0) "x" (.num 2)) .nil)) ["p"] [.num 1])
      (.gen .any (.compare (.attr (.name "o") "x") (.cons ">" (.name "p") .nil)) "o" (.name "others") .nil)) = true := by
  refine ⟨?_, ?_, ?_⟩ <;> decide +kernel

/-- **C18 is violated**: parameters inside a conditional expression are never replaced. `f = lambda p: 1 if p else 0` applied to
`ego.x` stays `1 if p else 0`. -/
theorem C18_conditional_expression_not_inlined_violated :
    ((lamFromAst Wit.ops.zero Wit.env1 [("p", none)] (.ifexp (.name "p") (.const (.num 1)) (.const (.num 0)))).map
      (fun r => (r.1.apply [.attr (.hole "ego" none) "x"]).2)) =
    .ok (.ifexp (.name "p") (.const (.num 1)) (.const (.num 0))) := by decide +kernel

/-- **C19** (partial). Every switching decision logic is accepted: `if`s over the inputs, nested in any way and with or without
`else`, that assign modes or constants to attributes of the output, and assertions. Restriction: an attribute that a block assigns
is not assigned again in a later `if` of the same block (see the violation below). Not covered: helper functions, local
variables and computed values. The name of the output and of the parameters must not clash with other names. -/
theorem C19_switching_logic_accepted_partial {P : PyOps V} (hP : P.Lawful) {tt : V} {ν : Store V} {N : Names} {env : Env V}
    {D : Logic V} {attrs : List String} (hD : Logic.WellNamed P ν N env { D with rest := [] } attrs) (hattrs : attrs ≠ [])
    (hout : ∀ op : RedOp, op.name ≠ D.out)
    (hsw : Switchings (N.params (D.params.map Prod.fst)) env.modeDefs D.out D.rest) :
    ∃ ir, extract P.zero tt env D.params D.body D.out = .ok ir :=
  switching_ok hP hD hattrs hout hsw

/-- `if any(o.x > ego.x for o in others): (if ego.m == Mode.A: out.m = Mode.B else: out.m = Mode.C); if ego.x > 2: out.m = Mode.B` -/
def switchRest : List (Stmt Wit.W) := [
  .ite (.gen .any (.compare (.attr (.name "o") "x") (.cons ">" (.attr (.name "ego") "x") .nil)) "o" (.name "others") .nil)
    [.ite (.compare (.attr (.name "ego") "m") (.cons "==" (.attr (.name "Mode") "A") .nil))
      [.setattr "out" "m" (.attr (.name "Mode") "B")] [.setattr "out" "m" (.attr (.name "Mode") "C")]] [],
  .ite (egoCmp "x" ">" 2) [.setattr "out" "m" (.attr (.name "Mode") "B")] []]

example : Logic.WellNamed Wit.ops Wit.ν Wit.N1 Wit.env1 { witLogic switchRest with rest := [] } ["x", "m", "y"] ∧
    (∀ op : RedOp, op.name ≠ (witLogic switchRest).out) ∧
    Switchings (Wit.N1.params ((witLogic switchRest).params.map Prod.fst)) Wit.env1.modeDefs (witLogic switchRest).out
      (witLogic switchRest).rest := by
  refine ⟨⟨Wit.module1, Wit.wellNamed.params, Wit.wellNamed.ego, Wit.wellNamed.state, Wit.wellNamed.copy, Wit.wellNamed.out, trivial⟩,
    by intro op; cases op <;> decide, ?_⟩
  have hA : ∀ n, (Wit.N1.params ((witLogic switchRest).params.map Prod.fst)).A n ↔
      n = "ego" ∨ n = "others" ∨ n = "copy" ∨ n = "Mode" := by
    intro n; simp [Wit.N1, Wit.N0, Names.helper, Names.params, witLogic, Wit.D, or_assoc]
  have hany : (Wit.N1.params ((witLogic switchRest).params.map Prod.fst)).Local "any" :=
    ⟨by rw [hA]; decide, by simp [Wit.N1, Wit.N0, Names.helper, Names.params], by decide +kernel⟩
  simp only [witLogic, switchRest, Switchings, Switching, Input, InputL, InputC, egoCmp, Literal, and_true]
  refine ⟨⟨⟨rfl, hany, ⟨_, rfl, (hA _).2 (by simp)⟩, ⟨_, rfl, .inl rfl⟩, _, rfl, .inr ((hA _).2 (by simp))⟩, ?_, ?_⟩, ?_, ?_, ?_⟩
  · exact ⟨⟨⟨_, rfl, (hA _).2 (by simp)⟩, _, rfl, (hA _).2 (by simp)⟩, ⟨⟨rfl, _, rfl, by decide⟩, by simp⟩, ⟨rfl, _, rfl, by decide⟩, by simp⟩
  · intro x a e h; cases h
  · intro x a e h; cases h
  · exact ⟨⟨_, rfl, (hA _).2 (by simp)⟩, ⟨rfl, _, rfl, by decide⟩, by simp⟩
  · intro x a e h; cases h

/-- **C19 is violated**: the legal program `out.m = 1; if ego.x > 2: out.m = 2; if ego.x > 5: out.m = 1` is rejected. The second `if` assigns a
value that is already among the cases, so there is nothing to merge. -/
theorem C19_reassigned_value_rejected_violated :
    witRun [.setattr "out" "m" (.const (.num 1)),
        .ite (egoCmp "x" ">" 2) [.setattr "out" "m" (.const (.num 2))] [],
        .ite (egoCmp "x" ">" 5) [.setattr "out" "m" (.const (.num 1))] []] (.set (.num 0) "x" (.num 7)) "m" = .ok (.num 1) ∧
    (witExtract [.setattr "out" "m" (.const (.num 1)),
        .ite (egoCmp "x" ">" 2) [.setattr "out" "m" (.const (.num 2))] [],
        .ite (egoCmp "x" ">" 5) [.setattr "out" "m" (.const (.num 1))] []]).toOption.isNone = true := by
  constructor <;> decide +kernel

end Verif.Props
