import Verif.Props.Source
import Verif.Props.Assembled

/-!
C97, from the source of decision logics to the result of `verify`: joins the parser model, the guard model and the model of `verify`.
-/

set_option autoImplicit false

namespace Verif.Props
open Verif.Spec Verif.Py Verif.Grd Verif.Grd.Spec Verif.Rd Verif.Rd.Spec Verif.Asm Verif.Asm.Spec Verif.Ver.Spec

variable {V K Seg : Type} [DecidableEq V] [Field K] [LinearOrder K] [IsStrictOrderedRing K]

/-- The asserts of the controller are the ones extracted from a decision logic, as the verifier reads them. -/
def ClaimsRead (lit : V → Option (Val K)) (S : Scope) (ir : IR V) (c : Controller K) : Prop :=
  ∀ x ∈ ir.asserts, ∃ y ∈ c.claims, readF lit S x.pre = some y.pre ∧ readF lit S x.cond = some y.cond

/-- The rules of the controller are the extracted transitions, as the verifier reads them. -/
def RulesRead (lit : V → Option (Val K)) (S : Scope) (ir : IR V) (c : Controller K) : Prop :=
  ∀ p ∈ ir.paths, ∃ r ∈ c.rules, r.var = p.var ∧ readF lit S p.cond = some r.guard

omit [IsStrictOrderedRing K] in
/-- **C97** (partial: restrictions of C14 and of the reading). In a state where every assert whose precondition is true is true, running the decision logic of an
agent as a Python program does not stop at an assertion. -/
theorem C97_fine_partial {P : PyOps V} (hP : P.Lawful) {tt : V} (htt : P.truth tt = true) {ν : Store V} {N : Names}
    {env : Env V} {D : Logic V} {attrs : List String} (hD : D.WellNamed P ν N env attrs) (hn : D.noTwin P.zero env = true) {ir : IR V}
    (hir : extract P.zero tt env D.params D.body D.out = .ok ir)
    {put : Val K → V} {lit : V → Option (Val K)} (hA : Agrees P put lit) (S : Scope) (T : Tools K Seg) (sc : Scenario K) (sig : String → Sig)
    (a : String) (c : Controller K) (hc : (a, c) ∈ sc.agents) (hargs : c.args ≠ []) (hread : ClaimsRead lit S ir c)
    (s : Snap K (Val K)) (hfine : Fine T sc sig s) (args : List V) (hS : Sees P put (ground T sc) S (view (sig a) a s) (D.start ν args))
    (hsafe : ∀ y ∈ c.claims, SafeF (ground T sc) (view (sig a) a s) y.pre ∧ SafeF (ground T sc) (view (sig a) a s) y.cond) :
    execs P (D.start ν args) D.body ≠ .error () := by
  intro hrun
  obtain ⟨x, hx, h1, h2⟩ := (C14_asserts_partial hP htt hD hn hir args).1 hrun
  obtain ⟨y, hy, r1, r2⟩ := hread x hx
  have hpre := (C97_reading_partial hP hA (ground T sc) S _ y.pre r1 _ _ hS (hsafe y hy).1).1 h1
  have hcond := (C97_reading_partial hP hA (ground T sc) S _ y.cond r2 _ _ hS (hsafe y hy).2).2 (hfine a c y hc hargs hy hpre)
  rw [h2] at hcond
  cases hcond

omit [IsStrictOrderedRing K] in
/-- **C97** (partial: restrictions of C13 and of the reading). If running the decision logic of an agent as a Python program gives a variable a new value, then
the agent has a rule for this variable whose guard is true in the state: the executions that `verify` covers (C55) take the transition. -/
theorem C97_rule_partial {P : PyOps V} (hP : P.Lawful) {tt : V} (htt : P.truth tt = true) {ν : Store V} {N : Names}
    {env : Env V} {D : Logic V} {attrs : List String} (hD : D.WellNamed P ν N env attrs) (hcond : D.rest.all (notTop D.out) = true)
    (hn : D.noTwin P.zero env = true) {ir : IR V} (hir : extract P.zero tt env D.params D.body D.out = .ok ir)
    {put : Val K → V} {lit : V → Option (Val K)} (hA : Agrees P put lit) (S : Scope) (T : Tools K Seg) (sc : Scenario K) (sig : String → Sig)
    (a : String) (c : Controller K) (hc : (a, c) ∈ sc.agents) (hread : RulesRead lit S ir c) (s : Snap K (Val K)) (args : List V)
    (hS : Sees P put (ground T sc) S (view (sig a) a s) (D.start ν args))
    (hsafe : ∀ r ∈ c.rules, SafeF (ground T sc) (view (sig a) a s) r.guard) {σ' : Store V} (hrun : execs P (D.start ν args) D.body = .ok σ') :
    ∀ x ∈ attrs, P.getattr (σ' D.out) x = P.getattr (D.start ν args D.ego) x ∨
      ∃ r ∈ c.rules, r.var = x ∧ (meaningOf T sc sig).holds (pathOf T r) a s := by
  intro x hx
  rcases C13_extraction_covers_partial hP htt hD hcond hn hir args hrun x hx with h | ⟨p, hp, h1, h2, -⟩
  · exact .inl h
  · obtain ⟨r, hr, r1, r2⟩ := hread p hp
    exact .inr ⟨r, hr, r1.trans h1, c, r, hc, hr, rfl, (C97_reading_partial hP hA (ground T sc) S _ r.guard r2 _ _ hS (hsafe r hr)).1 h2⟩

/-- **C97** (partial: restrictions of C14 and of the reading, and of `C80_formulas_partial`). When `verify` reports no failed assert, then in every
execution, at every step before the horizon, running the decision logic of each agent as a Python program does not stop at an assertion. -/
theorem C97_verified_partial {P : PyOps V} (hP : P.Lawful) {tt : V} (htt : P.truth tt = true)
    {put : Val K → V} {lit : V → Option (Val K)} (hA : Agrees P put lit) (T : Tools K Seg) (sc : Scenario K) (sig : String → Sig)
    (bloat : String → List (Grd.Val K) → Rect.Box K → ℚ → Ver.Tube K) (mapH : Option (Grd.Val K) → List (Grd.Val K) → List (Grd.Val K) → Option (Grd.Val K))
    (round10 : ℚ → ℚ) (sh : K → Rst.Text) (rd : Rst.Text → Option K) (flow : String → List (Grd.Val K) → (Nat → List K) → Prop) (dt : ℚ) (N : Nat)
    (d : String → Nat) (cfg : Engine.Cfg (Ver.Body (Sense K) (Ready K) K (Grd.Val K) (Reads K)) (Ver.Trace K) Ver.Hits)
    (t : RTree (Label (Ver.Body (Sense K) (Ready K) K (Grd.Val K) (Reads K)) (Ver.Trace K) Ver.Hits))
    (hsc : GoodScenario sc sig) (hshape : Shapes sc sig d) (hcor : Correct (ground T sc) T.solver) (hcomp : Complete T.solver)
    (wf : Ver.Spec.Body.WF (bodyOf T sc)) (hdim : ∀ a ∈ sc.agents, ∀ rs, Dict.get? sc.init a.1 = some rs → ∀ r ∈ rs, r.1.length = d a.1 ∧ r.2.length = d a.1)
    (hdims : ∀ a m c h, c.1.length = d a ∧ c.2.length = d a → ∀ s ∈ bloat a m c h, s.box.1.length = d a ∧ s.box.2.length = d a)
    (hsound : SoundTubes (worldOf sc bloat 1 mapH round10 sh rd) flow dt N d) (hdt : 0 < dt)
    (hround : ∀ k : Nat, round10 ((k : ℚ) * dt) = (k : ℚ) * dt ∧ cfg.round10 ((k : ℚ) * dt) = (k : ℚ) * dt ∧ cfg.roundN ((k : ℚ) * dt) = (k : ℚ) * dt)
    (hkind : cfg.kind = .ver) (hcfg : cfg.step = Ver.verStep (worldOf sc bloat 1 mapH round10 sh rd)) (hhor : cfg.horizon = (N : ℚ) * dt)
    (hret : Returned cfg (bodyOf T sc) [] t) (hsafe : ∀ u k, RTree.Below t u k → u.label.hits = .ok none)
    (hok : ∀ n full, Visited (worldOf sc bloat 1 mapH round10 sh rd) cfg (bodyOf T sc) n →
      Ver.fillTubes (worldOf sc bloat 1 mapH round10 sh rd) n.body n.start (cfg.round10 (cfg.horizon - n.start)) n.trace = .ok full →
      NodeRest (meaningOf T sc sig) (worldOf sc bloat 1 mapH round10 sh rd) n full ∧ MapsFit T sc sig n.body full)
    (ex : List (Phase K (Grd.Val K) × Nat)) (hex : Execution (meaningOf T sc sig) (worldOf sc bloat 1 mapH round10 sh rd) (bodyOf T sc) flow ex)
    (hstart : ∀ x, ex.head? = some x → Starts (bodyOf T sc) flow x.1) (hheight : ∀ mh, cfg.maxHeight = some mh → ex.length < mh)
    (k : Nat) (s : Snap K (Val K)) (hk : Occurs (bodyOf T sc) ex k s) (hN : k < N)
    (a : String) (c : Controller K) (hc : (a, c) ∈ sc.agents) (hargs : c.args ≠ []) {ν : Store V} {Nm : Names} {env : Env V} {D : Logic V} {attrs : List String}
    (hD : D.WellNamed P ν Nm env attrs) (hn : D.noTwin P.zero env = true) {ir : IR V} (hir : extract P.zero tt env D.params D.body D.out = .ok ir)
    (S : Scope) (hread : ClaimsRead lit S ir c) (args : List V) (hS : Sees P put (ground T sc) S (view (sig a) a s) (D.start ν args))
    (hdef : ∀ y ∈ c.claims, SafeF (ground T sc) (view (sig a) a s) y.pre ∧ SafeF (ground T sc) (view (sig a) a s) y.cond) :
    execs P (D.start ν args) D.body ≠ .error () :=
  C97_fine_partial hP htt hD hn hir hA S T sc sig a c hc hargs hread s
    (C80_formulas_partial T sc sig bloat mapH round10 sh rd flow dt N d cfg t hsc hshape hcor hcomp wf hdim hdims hsound hdt hround hkind hcfg hhor hret hsafe hok
      ex hex hstart hheight k s hk hN) args hS hdef

/-- `if ego.x > 2: out.m = 5 else: out.m = 5` -/
def twinMode : List (Stmt Wit.W) :=
  [.ite (.compare (.attr (.name "ego") "x") (.cons ">" (.const (.num 2)) .nil)) [.setattr "out" "m" (.const (.num 5))] [.setattr "out" "m" (.const (.num 5))]]

/-- `t = 2; if ego.x > 2: t = 1 else: t = 1; assert t == 2` -/
def twinAssert : List (Stmt Wit.W) :=
  [.assign "t" (.const (.num 2)), .ite (.compare (.attr (.name "ego") "x") (.cons ">" (.const (.num 2)) .nil)) [.assign "t" (.const (.num 1))] [.assign "t" (.const (.num 1))],
    .assert (.compare (.name "t") (.cons "==" (.const (.num 2)) .nil)) (some "t is 2")]

/-- **C97 fails** for transitions when both branches of an `if` assign the same value: Python sets the mode to 5, and a controller without any rule is what the
verifier reads from the source. -/
theorem C97_rule_violated : ∃ ir, witExtract twinMode = .ok ir ∧
    (∀ (lit : Wit.W → Option (Val ℚ)) (S : Scope) (c : Controller ℚ), c.rules = [] → RulesRead lit S ir c) ∧
    witRun twinMode (.set (.num 0) "m" (.num 1)) "m" = .ok (.num 5) := by
  refine ⟨⟨[], []⟩, by decide +kernel, ?_, by decide +kernel⟩
  intro lit S c _ p hp
  cases hp

/-- **C97 fails** for asserts after such an `if`: in Python the assert fails, and the condition that the verifier gets for it is true in every state. -/
theorem C97_assert_violated : ∃ ir, witExtract twinAssert = .ok ir ∧ (∃ x, ir.asserts = [x] ∧ ∀ σ : Store Wit.W, Wit.ops.truth (eval Wit.ops σ x.cond) = true) ∧
    witRun twinAssert (.set (.num 0) "x" (.num 0)) "x" = .error () := by
  refine ⟨⟨[], [⟨.compare (.const (.num 2)) (.cons "==" (.const (.num 2)) .nil), "t is 2", .const (.num 1)⟩]⟩, by decide +kernel, ⟨_, rfl, ?_⟩, by decide +kernel⟩
  intro σ
  rfl

end Verif.Props
