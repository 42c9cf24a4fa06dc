import Verif.Proofs.Safe
import Verif.Props.Execution

/-!
C80: when `verify` returns a tree without failed asserts, the executions satisfy the asserts.
-/

set_option autoImplicit false
set_option linter.unusedSectionVars false

namespace Verif.Props

open Verif.Ver Verif.Ver.Spec Verif.Proofs.Ver Verif.Rect.Spec Verif.Rst.Spec Verif.Spec

section
variable {S G K V D : Type} [Field K] [LinearOrder K] [DecidableEq V]

/-- **C80**, in part. Let `t` be a tree that `verify` returns for the scenario `b`, without failed asserts, with time step `dt` and time horizon
`N * dt`. In every execution from the initial set, with urgent transitions and fewer phases than the maximal height, all states before the horizon
satisfy the asserts of all controllers.

Missing: `NodeOK` must hold for all nodes, as in `C55_covers_partial`; in particular there are no gaps in which the scan of the tube ends early
(`C80_gap_violated`). The preconditions of asserts do not distinguish the states of a step (`C28_precondition_violated`). States are considered at the
steps only. -/
theorem C80_safe_partial (M : Meaning S G K V D) (w : World S K V) (b : Body S G K V D) (flow : String → List V → (Nat → List K) → Prop) (dt : ℚ) (N : Nat)
    (d : String → Nat) (cfg : Engine.Cfg (Body S G K V D) (Trace K) Hits) (t : RTree (Label (Body S G K V D) (Trace K) Hits))
    (wf : Body.WF b) (hdim : ∀ a ∈ b.agents, ∀ rs, Dict.get? b.init a.1 = some rs → ∀ r ∈ rs, r.1.length = d a.1 ∧ r.2.length = d a.1)
    (hsound : SoundTubes w flow dt N d) (hseg : w.segLen = 1) (hdt : 0 < dt)
    (hround : ∀ k : Nat, w.round10 ((k : ℚ) * dt) = (k : ℚ) * dt ∧ cfg.round10 ((k : ℚ) * dt) = (k : ℚ) * dt ∧ cfg.roundN ((k : ℚ) * dt) = (k : ℚ) * dt)
    (hkind : cfg.kind = .ver) (hcfg : cfg.step = verStep w) (hhor : cfg.horizon = (N : ℚ) * dt)
    (hret : Returned cfg b [] t) (hsafe : ∀ u k, RTree.Below t u k → u.label.hits = .ok none)
    (hok : ∀ n full, Visited w cfg b n → fillTubes w n.body n.start (cfg.round10 (cfg.horizon - n.start)) n.trace = .ok full →
      NodeOK M w n full ∧ AssertsFaithful M w n.body full)
    (ex : List (Phase K V × Nat)) (hex : Execution M w b flow ex) (hstart : ∀ x, ex.head? = some x → Starts b flow x.1)
    (hheight : ∀ mh, cfg.maxHeight = some mh → ex.length < mh) :
    ∀ k s, Occurs b ex k s → k < N → SafeState M b s := by
  have hexp := Engine.returned_explores hret
  have hd : (cfg.parallel && decide (cfg.kind = .sim)) = false := by rw [hkind]; simp
  rw [hd] at hexp
  obtain ⟨φ, m, rest, rfl⟩ : ∃ φ m rest, ex = (φ, m) :: rest := by
    cases hex
    · exact ⟨_, _, _, rfl⟩
    · exact ⟨_, _, _, rfl⟩
  have h0 : cfg.roundN 0 = 0 := by
    have := (hround 0).2.2
    simpa using this
  have hs := hstart (φ, m) rfl
  intro k s hocc hk
  refine tree_safe (cfg := cfg) wf hsound hseg hdt (fun k => (hround k).1) (fun k => (hround k).2) hcfg hhor hok _ hex φ m rest rfl
    ⟨0, cfg.roundN 0, b, []⟩ 0 0 t .root ?_ hexp (fun mh hm => by have := hheight mh hm; simpa using this) hsafe k s hocc (by omega)
  refine ⟨rfl, rfl, fun a ha => (hs a ha).2.1, ?_, by omega, by simp, by simp, fun a ha => (hs a ha).1, ?_, .inl rfl⟩
  · simp only; rw [h0]; simp
  · intro a ha
    obtain ⟨_, _, h3, r, h4, h5⟩ := hs a ha
    exact .inr ⟨rfl, [r], h4, fun r' hr' => hdim a ha _ h4 r' hr', h3, r, rfl, h5⟩

end

namespace ExecEx
open VerEx

/-- The answers about these asserts are right. -/
theorem asserts_faithful {A : List (Assertion Sn)} {paths : List (Path Sn Unit ℚ String Unit)} {b' : Body Sn Unit ℚ String Unit}
    (hA : ∀ x ∈ A, ∃ lo hi, x = plain lo hi) (hb : b'.agents = (body A paths).agents) (tr : Trace ℚ) : AssertsFaithful meaning wld b' tr := by
  refine ⟨?_, ?_⟩
  · intro i a dl x sd hc hx _ hr s hs
    obtain ⟨rfl, rfl⟩ := ctl hb hc
    obtain ⟨lo, hi, rfl⟩ := hA x hx
    exact (inInterval_spec lo hi "a" s sd hs _ hr).2 rfl
  · intro i a dl x sd r hc hx _ hr _
    obtain ⟨rfl, rfl⟩ := ctl hb hc
    obtain ⟨lo, hi, rfl⟩ := hA x hx
    exact (Except.ok.inj hr).symm

theorem okA_plain : ∀ x ∈ okA, ∃ lo hi, x = plain lo hi := by
  intro x hx
  simp only [okA, List.mem_singleton] at hx
  exact ⟨_, _, hx⟩

/-- The execution of `ok_case`, which switches, satisfies the asserts. -/
example : ∀ k s, Occurs (body okA okP) [(ex1, 2), (ex2, 1)] k s → k < 3 → SafeState meaning (body okA okP) s := by
  obtain ⟨t, h1, h2, h3, h4, h5, h6, h7, h8, h9, h10⟩ := ok_case
  refine C80_safe_partial meaning wld (body okA okP) flow 1 3 (fun _ => 1) cfg t h3 ?_ h4 h5 (by norm_num) ?_ rfl h6 h7 h1 h2
    (fun n full hn hf => ⟨h8 n full hn hf, ?_⟩) _ h9 ?_ ?_
  · intro a ha rs hrs r hr
    simp only [body, List.mem_cons, List.not_mem_nil, or_false] at ha hrs
    rcases ha with rfl | rfl
    · cases hrs; rw [List.mem_singleton] at hr; subst hr; exact ⟨rfl, rfl⟩
    · cases hrs; rw [List.mem_singleton] at hr; subst hr; exact ⟨rfl, rfl⟩
  · intro k
    exact ⟨rfl, rfl, rfl⟩
  · rcases visited hn with rfl | rfl
    · exact asserts_faithful okA_plain rfl _
    · exact asserts_faithful (b' := child.body) (A := okA) (paths := okP) okA_plain rfl _
  · intro x hx
    simp only [List.head?_cons, Option.some.injEq] at hx
    subst hx
    exact h10
  · intro mh hm
    cases hm
    decide

/-- Something is asserted of this execution: its state after two steps occurs, and the precondition is met there. -/
example : Occurs (body okA okP) [(ex1, 2), (ex2, 1)] 2 (ex1.snap (body okA okP) 2) ∧
    ∃ x ∈ (logic okA okP).asserts, meaning.pre x "a" (ex1.snap (body okA okP) 2) :=
  ⟨.here (by omega), plain (-1) 11, by simp [logic, okA], rfl⟩

/-! #### a violation -/

/-- `if ego.x <= 5: assert ego.x <= 2` (all values are at least -1) -/
def gapA : List (Assertion Sn) := [assertion (-1) 5 (-1) 2]

/-- Between 1/4 and 1/2, the mode becomes `B` and `x` becomes 10. -/
def gapQ : List (Path Sn Unit ℚ String Unit) := [path "agent_mode" (1/4) (1/2) (.const "B"), path "x" (1/4) (1/2) (.arith (.atom ['1', '0']))]

def groot : Engine.Work (Body Sn Unit ℚ String Unit) (Trace ℚ) := ⟨0, 0, body gapA gapQ, []⟩

def gchild : Engine.Work (Body Sn Unit ℚ String Unit) (Trace ℚ) :=
  ⟨1, 0, { body gapA gapQ with mode := [("a", ["B"]), ("b", ["A"])], init := [("a", [([10], [10])]), ("b", [([5], [6])])] },
    [("b", [seg 0 5 6, seg 1 5 6, seg 2 5 6])]⟩

def gchildFull : Trace ℚ := [("b", [seg 0 5 6, seg 1 5 6, seg 2 5 6]), ("a", [seg 0 10 10, seg 1 10 10, seg 2 10 10])]

theorem groot_run : (verifyOne wld groot 3).map view =
    .ok ⟨none, [⟨0, gchild.body.mode, gchild.body.init, gchild.trace⟩], [("a", [seg 0 0 1]), ("b", [seg 0 5 6])]⟩ := by
  decide +kernel

theorem gchild_run : (verifyOne wld gchild 3).map view = .ok ⟨none, [], gchildFull⟩ := by
  decide +kernel

theorem groot_fill : fillTubes wld groot.body 0 3 [] = .ok rootFull := by decide +kernel
theorem gchild_fill : fillTubes wld gchild.body 0 3 gchild.trace = .ok gchildFull := by decide +kernel

theorem gvisited {n : Engine.Work (Body Sn Unit ℚ String Unit) (Trace ℚ)} (h : Visited wld cfg (body gapA gapQ) n) : n = groot ∨ n = gchild := by
  induction h with
  | root => exact .inl rfl
  | @child n c _ hc ih =>
    right
    rcases ih with rfl | rfl
    · have e : cfg.round10 (cfg.horizon - groot.start) = 3 := by decide +kernel
      rw [e] at hc
      obtain ⟨res, h1, _, _, h4⟩ := of_view groot_run
      simp only [verStep, h1] at hc
      have h5 := h4 c hc
      obtain ⟨h6, h7⟩ := next_agents h1 c hc
      simp only [List.mem_singleton, ChildView.mk.injEq] at h5
      obtain ⟨e1, e2, e3, e4⟩ := h5
      obtain ⟨start, bd, tr⟩ := c
      obtain ⟨ags, md, ini, st⟩ := bd
      simp only at e1 e2 e3 e4 h6 h7
      subst e1 e2 e3 e4 h6 h7
      rfl
    · have e : cfg.round10 (cfg.horizon - gchild.start) = 3 := by decide +kernel
      rw [e] at hc
      obtain ⟨res, h1, _, _, h4⟩ := of_view gchild_run
      simp only [verStep, h1] at hc
      exact absurd (h4 c hc) (by simp)

/-- What the agent senses is its own rectangle. -/
theorem sensed {A : List (Assertion Sn)} {paths : List (Path Sn Unit ℚ String Unit)} {b' : Body Sn Unit ℚ String Unit}
    (hb : b'.agents = (body A paths).agents) {tr : Trace ℚ} {i : Nat} {sd : StateDict ℚ String} (h : Boxes b' tr i sd) :
    ∃ segs seg, Dict.get? tr "a" = some segs ∧ segs[i]? = some seg ∧ wld.sense "a" sd = seg.box := by
  unfold Boxes at h
  rw [hb] at h
  cases h with
  | @cons _ x _ l2 h1 h2 =>
    obtain ⟨e1, ⟨segs, e2, e3⟩, _⟩ := h1
    refine ⟨segs, x.2.1, e2, e3, ?_⟩
    show sense "a" (x :: l2) = _
    unfold sense
    rw [List.find?_cons_of_pos (by simp only [decide_eq_true_eq]; exact e1)]
    rfl

/-- The answers about this assert are right where the precondition is certain or impossible. -/
theorem gap_asserts {paths : List (Path Sn Unit ℚ String Unit)} {b' : Body Sn Unit ℚ String Unit} (hb : b'.agents = (body gapA paths).agents)
    (tr : Trace ℚ) (segs : Tube ℚ) (h1 : Dict.get? tr "a" = some segs)
    (h2 : ∀ s ∈ segs, inInterval (-1) 5 s.box = .ok (true, true) ∨ inInterval (-1) 5 s.box = .ok (false, false)) : AssertsFaithful meaning wld b' tr := by
  refine ⟨?_, ?_⟩
  · intro i a dl x sd hc hx _ hr s hs
    obtain ⟨rfl, rfl⟩ := ctl hb hc
    obtain rfl : x = assertion (-1) 5 (-1) 2 := by simpa [logic, gapA] using hx
    exact (inInterval_spec _ _ "a" s sd hs _ hr).2 rfl
  · rintro i a dl x sd r hc hx hbx hr ⟨s, hs, hp⟩
    obtain ⟨rfl, rfl⟩ := ctl hb hc
    obtain rfl : x = assertion (-1) 5 (-1) 2 := by simpa [logic, gapA] using hx
    obtain ⟨segs', sg, h3, h4, h5⟩ := sensed hb hbx
    rw [h1] at h3
    cases h3
    rcases h2 sg (List.mem_of_getElem? h4) with e | e
    · have hr' : inInterval (-1) 5 (wld.sense "a" sd) = .ok r := hr
      rw [h5, e] at hr'
      exact (Except.ok.inj hr').symm
    · rw [← h5] at e
      have := (inInterval_spec (-1) 5 "a" s sd hs _ e).1 hp
      simp at this

end ExecEx

open VerEx ExecEx in
/-- **Violation of C80.** The guard may be satisfied at the first step, for some states of the initial set, and not at the second. Then the scan of the
tube ends, and the third rectangle, in which the assert fails, is not looked at. `verify` reports no failed assert, and the execution from `x = 3/4`,
which never satisfies the guard, violates the assert after two steps. -/
theorem C80_gap_violated : ∃ (b : Body Sn Unit ℚ String Unit) (ex : List (Phase ℚ String × Nat)) (t : RTree (Label (Body Sn Unit ℚ String Unit) (Trace ℚ) Hits)),
    Returned ExecEx.cfg b [] t ∧ (∀ u k, RTree.Below t u k → u.label.hits = .ok none) ∧ Body.WF b ∧ SoundTubes wld ExecEx.flow 1 3 (fun _ => 1) ∧
    ExecEx.cfg.step = verStep wld ∧ ExecEx.cfg.horizon = ((3 : Nat) : ℚ) * 1 ∧ (∀ mh, ExecEx.cfg.maxHeight = some mh → ex.length < mh) ∧
    (∀ n full, Visited wld ExecEx.cfg b n → fillTubes wld n.body n.start (ExecEx.cfg.round10 (ExecEx.cfg.horizon - n.start)) n.trace = .ok full →
      Faithful meaning wld n.body full ∧ AssertsFaithful meaning wld n.body full) ∧
    Execution meaning wld b ExecEx.flow ex ∧ (∀ x, ex.head? = some x → Starts b ExecEx.flow x.1) ∧
    ∃ s, Occurs b ex 2 s ∧ ¬ SafeState meaning b s := by
  obtain ⟨t, ht⟩ := ExecEx.returned (body gapA gapQ)
  have e3 : ExecEx.cfg.round10 (ExecEx.cfg.horizon - groot.start) = 3 := by decide +kernel
  have e4 : ExecEx.cfg.round10 (ExecEx.cfg.horizon - gchild.start) = 3 := by decide +kernel
  have hint : Intervals gapQ := by
    intro p hp
    simp only [gapQ, List.mem_cons, List.not_mem_nil, or_false] at hp
    rcases hp with rfl | rfl
    · exact ⟨_, _, _, _, rfl⟩
    · exact ⟨_, _, _, _, rfl⟩
  refine ⟨body gapA gapQ, [(passing, 2)], t, ht, ?_, wf _ _, soundTubes 3, rfl, by decide +kernel, ?_, ?_, .last ?_, ?_,
    _, .here (le_refl 2), ?_⟩
  · intro u k hu
    have hx := Engine.returned_explores ht
    obtain ⟨st', b', tr', h1, h2⟩ := Engine.explores_below_inv (I := fun n => Visited wld ExecEx.cfg (body gapA gapQ) n)
      (fun n _ hn c hc => .child hn hc) hu hx .root
    obtain ⟨-, -, -, h3 | ⟨-, -, h3, -⟩⟩ := Engine.explores_node h1
    · exact h3.2.2.2
    · rw [h3]
      rcases gvisited h2 with e | e
      · rw [e]
        obtain ⟨res, r1, r2, -⟩ := of_view groot_run
        show (verStep wld groot (ExecEx.cfg.round10 (ExecEx.cfg.horizon - groot.start))).hits = _
        rw [e3, verStep, r1]
        show Except.ok res.hits = _
        rw [r2]
      · rw [e]
        obtain ⟨res, r1, r2, -⟩ := of_view gchild_run
        show (verStep wld gchild (ExecEx.cfg.round10 (ExecEx.cfg.horizon - gchild.start))).hits = _
        rw [e4, verStep, r1]
        show Except.ok res.hits = _
        rw [r2]
  · intro mh hm
    cases hm
    decide
  · intro n full hn hf
    rcases gvisited hn with rfl | rfl
    · rw [e3] at hf
      cases groot_fill.symm.trans hf
      exact ⟨faithful' (A := gapA) (paths := gapQ) rfl hint _, gap_asserts (paths := gapQ) rfl _ [seg 0 0 1, seg 1 1 2, seg 2 2 3] (by decide +kernel) (by decide +kernel)⟩
    · rw [e4] at hf
      cases gchild_fill.symm.trans hf
      exact ⟨faithful' (b' := gchild.body) (A := gapA) (paths := gapQ) rfl hint _,
        gap_asserts (b' := gchild.body) (paths := gapQ) rfl _ [seg 0 10 10, seg 1 10 10, seg 2 10 10] (by decide +kernel) (by decide +kernel)⟩
  · intro k a dl p hk hc hp hh
    obtain ⟨rfl, rfl⟩ := controlled hc
    have hpc : p.check () = inInterval (1/4) (1/2) := by
      simp only [logic, gapQ, List.mem_cons, List.not_mem_nil, or_false] at hp
      rcases hp with rfl | rfl <;> rfl
    simp only [meaning, hpc] at hh
    rcases (by omega : k = 0 ∨ k = 1) with rfl | rfl
    · exact absurd hh (by decide +kernel)
    · exact absurd hh (by decide +kernel)
  · rintro x hx
    simp only [List.head?_cons, Option.some.injEq] at hx
    subst hx
    intro a ha
    simp only [body, List.mem_cons, List.not_mem_nil, or_false] at ha
    rcases ha with rfl | rfl
    · exact ⟨rfl, rfl, flow1 (3/4) "a", ([0], [1]), rfl, inside1 _ _ _ (by norm_num) (by norm_num)⟩
    · exact ⟨rfl, rfl, flow1 (3/4) "b", ([5], [6]), rfl, inside1 _ _ _ (by norm_num) (by norm_num)⟩
  · intro hs
    have := hs "a" (logic gapA gapQ) (assertion (-1) 5 (-1) 2) (controlled_a _ _) (by simp [logic, gapA])
      (show inInterval (-1) 5 (point "a" (passing.snap (body gapA gapQ) 2)) = .ok (true, true) by decide +kernel)
    exact absurd (show inInterval (-1) 2 (point "a" (passing.snap (body gapA gapQ) 2)) = .ok (true, true) from this) (by decide +kernel)

end Verif.Props
