import Verif.Props.SourceVerify
import Verif.Props.AssembledEx

/-!
The decision logic whose controller is the one of the scenario in `AssembledEx`: the hypotheses of `C97_verified_partial` are met.
-/

set_option autoImplicit false

namespace Verif.Props.SrcEx
open Verif.Py Verif.Grd Verif.Grd.Spec Verif.Rd Verif.Rd.Spec Verif.Asm Verif.Asm.Spec Verif.Ver.Spec Verif.Props

/-- The names of the module: `copy` and the mode class; the comprehension variable is `other`. -/
def N : Names where
  A := fun n => n = "copy" ∨ n = "Mode"
  B := fun n => n = "other"
  L := fun _ => none

def env : Env Wit.W where
  vars := [("copy", .cell (.ast (.hole "copy" none))), ("Mode", .cell (.ast (.hole "Mode" none)))]
  asserts := []
  stateDefs := [("State", ["x", "agent_mode"])]
  modeDefs := ["Mode"]

theorem module : Module Wit.ops Wit.ν N env := by
  refine .base N env ?_ ?_ ?_ ?_ ?_ ?_ ?_
  · intro k sv h
    simp only [Env.lookup, env, Dict.get?, List.find?] at h
    by_cases h1 : "copy" = k
    · subst h1; simp at h; subst h; exact ⟨.inl rfl, none, rfl⟩
    · by_cases h2 : "Mode" = k
      · subst h2; simp at h; subst h; exact ⟨.inr rfl, none, rfl⟩
      · simp [h1, h2] at h
  · rintro n (rfl | rfl)
    · exact ⟨none, by decide +kernel⟩
    · exact ⟨none, by decide +kernel⟩
  · rintro n (rfl | rfl) <;> simp [N]
  · intro n; rfl
  · intro n hn
    have : n = "Mode" := by simpa [env] using hn
    subst this
    exact ⟨.inr rfl, fun a => rfl⟩
  · intro _ v; rfl
  · simp [N]

/-- `ego.agent_mode == Mode.A` -/
def isA : Expr Wit.W := .compare (.attr (.name "ego") "agent_mode") (.cons "==" (.attr (.name "Mode") "A") .nil)

/-- ```
def decisionLogic(ego: State, others):
    out = copy.deepcopy(ego)
    if ego.agent_mode == Mode.A and ego.x >= 1.5:
        out.agent_mode = Mode.B
        out.x = 10
    if ego.agent_mode == Mode.A:
        assert all(other.x >= 4 for other in others), "far"
    assert ego.x >= -1, "low"
    return out
``` -/
def D : Logic Wit.W where
  params := [("ego", some "State"), ("others", none)]
  ego := "ego"
  cls := "State"
  out := "out"
  rest := [
    .ite (.boolop .and (.cons isA (.cons (.compare (.attr (.name "ego") "x") (.cons ">=" (.const (.num (3/2))) .nil)) .nil)))
      [.setattr "out" "agent_mode" (.attr (.name "Mode") "B"), .setattr "out" "x" (.const (.num 10))] [],
    .ite isA [.assert (.gen .all (.compare (.attr (.name "other") "x") (.cons ">=" (.const (.num 4)) .nil)) "other" (.name "others") .nil) (some "far")] [],
    .assert (.compare (.attr (.name "ego") "x") (.cons ">=" (.const (.num (-1))) .nil)) (some "low")]

theorem wellNamed : D.WellNamed Wit.ops Wit.ν N env ["x", "agent_mode"] where
  module := module
  params := by
    refine ⟨by decide, ?_, by decide⟩
    intro p hp
    simp only [D, List.map_cons, List.map_nil, List.mem_cons, List.not_mem_nil, or_false] at hp
    rcases hp with rfl | rfl <;> refine ⟨by simp [N], by simp [N], by decide +kernel⟩
  ego := by simp [D]
  state := by decide +kernel
  copy := .inl rfl
  out := ⟨by simp [N, Names.params, D], by simp [N, Names.params, D], by decide +kernel⟩
  static := by
    have hA : ∀ n, (N.params (D.params.map Prod.fst)).A n ↔ n = "ego" ∨ n = "others" ∨ n = "copy" ∨ n = "Mode" := by
      intro n; simp [N, Names.params, D, or_assoc]
    have hB : ∀ n, (N.params (D.params.map Prod.fst)).B n ↔ n = "other" := by
      intro n; rfl
    have hl : (N.params (D.params.map Prod.fst)).Local "out" := by
      refine ⟨by rw [hA]; decide, by rw [hB]; decide, by decide +kernel⟩
    simp only [D, isA, StaticSs, StaticS, Static, StaticL, StaticC, Py.Plain, and_true, true_and]
    refine ⟨⟨⟨hl, _, rfl, (hA _).2 (by simp)⟩, hl⟩, (hB _).2 rfl, ⟨_, rfl, (hA _).2 (by simp)⟩, ?_⟩
    intro n hn
    simp [occursL] at hn

theorem noTwin : D.noTwin (.num 0) env = true := by decide +kernel

def S : Scope := ⟨["ego"], ["x", "agent_mode"], ["others"], [], []⟩

set_option synthInstance.maxSize 1000 in
/-- What is extracted from the Python text are the rules and the asserts of the scenario. -/
theorem extracted : ∃ ir, extract Wit.ops.zero (.bool true) env D.params D.body D.out = .ok ir ∧ ClaimsRead witLit S ir AsmEx.ctlA ∧ RulesRead witLit S ir AsmEx.ctlA := by
  have h : ((extract Wit.ops.zero (.bool true) env D.params D.body D.out).map fun ir =>
      (ir.asserts.map fun x => (readF witLit S x.pre, readF witLit S x.cond), ir.paths.map fun p => (p.var, readF witLit S p.cond))) =
      .ok (AsmEx.claims.map fun y => (some y.pre, some y.cond), [("x", some AsmEx.grd), ("agent_mode", some AsmEx.grd)]) := by decide +kernel
  obtain ⟨ir, h1, h2⟩ := (Verif.map_ok_iff _ _ _).1 h
  simp only [Prod.mk.injEq] at h2
  refine ⟨ir, h1, ?_, ?_⟩
  · intro x hx
    have h3 := List.mem_map_of_mem (f := fun x : AssertIR Wit.W => (readF witLit S x.pre, readF witLit S x.cond)) hx
    rw [h2.1] at h3
    obtain ⟨y, hy, e⟩ := List.mem_map.1 h3
    simp only [Prod.mk.injEq] at e
    exact ⟨y, hy, e.1.symm, e.2.symm⟩
  · intro p hp
    have h3 := List.mem_map_of_mem (f := fun p : Py.Path Wit.W => (p.var, readF witLit S p.cond)) hp
    rw [h2.2] at h3
    simp only [List.mem_cons, Prod.mk.injEq, List.not_mem_nil, or_false] at h3
    rcases h3 with ⟨e1, e2⟩ | ⟨e1, e2⟩
    · exact ⟨⟨"x", AsmEx.grd, .arith (.atom ['1', '0'])⟩, by simp [AsmEx.ctlA, AsmEx.rules], e1.symm, e2⟩
    · exact ⟨⟨"agent_mode", AsmEx.grd, .const (.str "B")⟩, by simp [AsmEx.ctlA, AsmEx.rules], e1.symm, e2⟩

/-- The objects that stand for the two agents: `ego` and the list of others. -/
def argsOf (x : ℚ) (m : String) (y : ℚ) (n : String) : List Wit.W :=
  [.set (.set (.num 0) "x" (.num x)) "agent_mode" (.str m), .cons (.set (.set (.num 0) "x" (.num y)) "agent_mode" (.str n)) .nil]

def snapOf (x : ℚ) (m : String) (y : ℚ) (n : String) : Snap ℚ (Val ℚ) := [("a", [x], [.str m], []), ("b", [y], [.str n], [])]

theorem sees (x : ℚ) (m : String) (y : ℚ) (n : String) :
    Sees Wit.ops witPut (ground AsmEx.T AsmEx.sc) S (view (AsmEx.sig "a") "a" (snapOf x m y n)) (D.start Wit.ν (argsOf x m y n)) where
  attr k hk a ha := by
    simp only [S, List.mem_cons, List.not_mem_nil, or_false] at hk ha
    subst hk
    rcases ha with rfl | rfl <;> rfl
  length l hl := by
    simp only [S, List.mem_cons, List.not_mem_nil, or_false] at hl
    subst hl
    rfl
  item l hl i v hv a ha := by
    simp only [S, List.mem_cons, List.not_mem_nil, or_false] at hl ha
    subst hl
    have e : Wit.ops.iter (D.start Wit.ν (argsOf x m y n) "others") = [.set (.set (.num 0) "x" (.num y)) "agent_mode" (.str n)] := rfl
    rw [e] at hv
    match i with
    | 0 =>
      simp only [List.getElem?_cons_zero, Option.some.injEq] at hv
      subst hv
      rcases ha with rfl | rfl <;> rfl
    | i + 1 => simp at hv
  call f hf := by simp [S] at hf
  method f hf := by simp [S] at hf
  query f hf := by simp [S] at hf

theorem safe_inA (x : ℚ) (m : String) (y : ℚ) (n : String) :
    SafeF (ground AsmEx.T AsmEx.sc) (view (AsmEx.sig "a") "a" (snapOf x m y n)) AsmEx.inA :=
  ⟨trivial, trivial, trivial⟩

theorem safe_claims (x : ℚ) (m : String) (y : ℚ) (n : String) : ∀ c ∈ AsmEx.ctlA.claims,
    SafeF (ground AsmEx.T AsmEx.sc) (view (AsmEx.sig "a") "a" (snapOf x m y n)) c.pre ∧
      SafeF (ground AsmEx.T AsmEx.sc) (view (AsmEx.sig "a") "a" (snapOf x m y n)) c.cond := by
  intro c hc
  simp only [AsmEx.ctlA, AsmEx.claims, List.mem_cons, List.not_mem_nil, or_false] at hc
  rcases hc with rfl | rfl
  · refine ⟨safe_inA x m y n, fun i hi => ?_⟩
    have : i = 0 := by
      have : (ground AsmEx.T AsmEx.sc).len "others" = 1 := rfl
      omega
    subst this
    exact ⟨trivial, trivial, trivial⟩
  · exact ⟨trivial, trivial, trivial, trivial⟩

theorem safe_rules (x : ℚ) (m : String) (y : ℚ) (n : String) : ∀ r ∈ AsmEx.ctlA.rules,
    SafeF (ground AsmEx.T AsmEx.sc) (view (AsmEx.sig "a") "a" (snapOf x m y n)) r.guard := by
  intro r hr
  simp only [AsmEx.ctlA, AsmEx.rules, List.mem_cons, List.not_mem_nil, or_false] at hr
  rcases hr with rfl | rfl <;> exact ⟨safe_inA x m y n, fun _ => ⟨⟨trivial, trivial, trivial⟩, fun _ => trivial⟩⟩

theorem snap2 : AsmEx.ex1.snap (bodyOf AsmEx.T AsmEx.sc) 2 = snapOf (9/4) "A" (11/2) "A" := by
  rw [AsmEx.snap_eq, AsmEx.path1, AsmEx.path1b]
  norm_num [snapOf, AsmEx.ex1]

/-- The hypotheses of `C97_verified_partial` are met: `verify` reports no failed assert, so after two steps of the execution of `AssembledEx` the
Python program does not stop. -/
example : execs Wit.ops (D.start Wit.ν (argsOf (9/4) "A" (11/2) "A")) D.body ≠ .error () := by
  obtain ⟨t, ht⟩ := AsmEx.returned
  obtain ⟨ir, hir, h1, -⟩ := extracted
  refine C97_verified_partial Wit.lawful rfl wit_agrees AsmEx.T AsmEx.sc AsmEx.sig AsmEx.bloat AsmEx.mapH id AsmEx.sh AsmEx.rd AsmEx.flow 1 3 (fun _ => 1)
    AsmEx.cfg t AsmEx.good AsmEx.shapes AsmEx.correct AsmEx.complete AsmEx.wf AsmEx.dims (fun _ _ _ _ h => AsmEx.drift_dims h) (AsmEx.soundTubes 3)
    (by norm_num) (fun _ => ⟨rfl, rfl, rfl⟩) rfl rfl (by decide +kernel) ht (AsmEx.safe ht) AsmEx.nodes_ok _ AsmEx.execution ?_ ?_
    2 (snapOf (9/4) "A" (11/2) "A") ?_ (by decide) "a" AsmEx.ctlA (by simp [AsmEx.sc]) (by simp [AsmEx.ctlA]) wellNamed noTwin hir S h1 _
    (sees _ _ _ _) (safe_claims _ _ _ _)
  · intro x hx
    simp only [List.head?_cons, Option.some.injEq] at hx
    subst hx
    exact AsmEx.starts
  · intro mh hm
    cases hm
    decide
  · rw [← snap2]
    exact .here (by omega)

/-- The hypotheses of `C97_fine_partial` are met by every state of this scenario in which the asserts are true: for instance when the other agent is far away. -/
example (x : ℚ) (hx : -1 ≤ x) (m n : String) : execs Wit.ops (D.start Wit.ν (argsOf x m 4 n)) D.body ≠ .error () := by
  obtain ⟨ir, hir, h1, -⟩ := extracted
  refine C97_fine_partial Wit.lawful rfl wellNamed noTwin hir wit_agrees S AsmEx.T AsmEx.sc AsmEx.sig "a" AsmEx.ctlA (by simp [AsmEx.sc])
    (by simp [AsmEx.ctlA]) h1 (snapOf x m 4 n) ?_ _ (sees _ _ _ _) (safe_claims _ _ _ _)
  intro a c y hc ha hy _
  obtain ⟨rfl, rfl⟩ := AsmEx.ctl_args hc ha
  simp only [AsmEx.ctlA, AsmEx.claims, List.mem_cons, List.not_mem_nil, or_false] at hy
  rcases hy with rfl | rfl
  · intro i hi
    have : i = 0 := by
      have : (ground AsmEx.T AsmEx.sc).len "others" = 1 := rfl
      omega
    subst this
    exact (le_refl (4 : ℚ) : (4 : ℚ) ≤ 4)
  · exact (hx : (-1 : ℚ) ≤ x)

/-- The hypotheses of `C97_rule_partial` are met, and the run changes the mode. -/
example : ∃ σ', execs Wit.ops (D.start Wit.ν (argsOf (9/4) "A" (11/2) "A")) D.body = .ok σ' ∧ Wit.ops.getattr (σ' "out") "agent_mode" = .str "B" ∧
    ∃ r ∈ AsmEx.ctlA.rules, r.var = "agent_mode" ∧
      (meaningOf AsmEx.T AsmEx.sc AsmEx.sig).holds (pathOf AsmEx.T r) "a" (snapOf (9/4) "A" (11/2) "A") := by
  obtain ⟨ir, hir, -, h2⟩ := extracted
  have h : ((execs Wit.ops (D.start Wit.ν (argsOf (9/4) "A" (11/2) "A")) D.body).map fun σ => Wit.ops.getattr (σ "out") "agent_mode") = .ok (.str "B") := by
    decide +kernel
  obtain ⟨σ', h3, h4⟩ := (Verif.map_ok_iff _ _ _).1 h
  refine ⟨σ', h3, h4, ?_⟩
  rcases C97_rule_partial Wit.lawful rfl wellNamed (by decide +kernel) noTwin hir wit_agrees S AsmEx.T AsmEx.sc AsmEx.sig "a" AsmEx.ctlA (by simp [AsmEx.sc])
    h2 _ _ (sees (9/4) "A" (11/2) "A") (safe_rules _ _ _ _) h3 "agent_mode" (by decide) with h5 | h5
  · have h6 : Wit.ops.getattr (D.start Wit.ν (argsOf (9/4) "A" (11/2) "A") D.ego) "agent_mode" = .str "A" := rfl
    rw [h6] at h5
    exact absurd (h4.symm.trans h5) (by decide +kernel)
  · exact h5

end Verif.Props.SrcEx
