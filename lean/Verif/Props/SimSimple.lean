import Verif.Proofs.SimSimple

/-!
C72: `simulate_simple` produces the run of the system in which the decision logic is executed by Python.
-/

set_option autoImplicit false
set_option linter.unusedSectionVars false

namespace Verif.Props

open Verif.Sim (Row Err StateDict)
open Verif.Simple Verif.Spec.Simple

variable {R V : Type} [DecidableEq V]

/-- C72: the nodes returned by `simulate_simple` are one run of the system, from the given initial states. What is missing: state definitions with
static variables, decision logics that change their argument, and decision logics without transitions (see the counterexamples below). -/
theorem C72_follows_partial (w : World R V) (c : Cfg) (fuel : Nat) (b : Body R V) (hw : WF w b) (nodes : List (Rec R V))
    (h : simulateSimple w c fuel b = .ok (some nodes)) :
    Run w c nodes ∧ ∃ n, nodes[0]? = some n ∧ n.body = b ∧ n.start = c.roundN 0 ∧ n.height = 0 := by
  have hf : Fresh w ({ height := 0, start := c.roundN 0, body := b, trace := [], hits := some [], child := [] } : Rec R V) :=
    ⟨hw, rfl, fun a ha => by simp [Dict.get?_nil] at ha⟩
  obtain ⟨h1, h2⟩ := run_spec w c fuel [] _ nodes hf (fun j n hj => absurd hj (Nat.not_lt_zero _)) h
  refine ⟨h1, ?_⟩
  obtain ⟨n, p1, p2, p3, p4⟩ := h2 0 _ rfl
  exact ⟨n, p1, p2, p3, p4⟩

/-- C72: the result is a path: node `i` has height `i`, and every node but the last has the next node as its only child. -/
theorem C72_path_partial (w : World R V) (c : Cfg) (fuel : Nat) (b : Body R V) (hw : WF w b) (nodes : List (Rec R V))
    (h : simulateSimple w c fuel b = .ok (some nodes)) (i : Nat) (n : Rec R V) (hn : nodes[i]? = some n) :
    n.height = i ∧ n.child = (if i + 1 < nodes.length then [i + 1] else []) := by
  obtain ⟨hrun, n0, h0, _, _, h0h⟩ := C72_follows_partial w c fuel b hw nodes h
  have hlt : i < nodes.length := (List.getElem?_eq_some_iff.1 hn).1
  refine ⟨?_, ?_⟩
  · clear hlt
    induction i generalizing n with
    | zero => rw [h0] at hn; injection hn with hn; subst hn; exact h0h
    | succ i ih =>
      have hi : i < nodes.length := by have := (List.getElem?_eq_some_iff.1 hn).1; omega
      obtain ⟨p, hp⟩ : ∃ p, nodes[i]? = some p := ⟨nodes[i], List.getElem?_eq_getElem hi⟩
      rcases hrun i p hp with ⟨hl, _⟩ | ⟨m, full, k, hm, _, _, _, hc⟩
      · have := (List.getElem?_eq_some_iff.1 hn).1; omega
      · rw [hn] at hm; injection hm with hm; subst hm
        rw [hc.height, ih p hp]
  · rcases hrun i n hn with ⟨hl, hs⟩ | ⟨m, full, k, hm, hch, _⟩
    · rw [if_neg (by omega)]
      rcases hs with hs | ⟨full, _, hs | ⟨k, labels, hs⟩⟩
      · exact hs.1
      · exact hs.child
      · exact hs.child
    · rw [if_pos (List.getElem?_eq_some_iff.1 hm).1]; exact hch

/-- C72: with a bound `max_height` the call returns or raises an exception. -/
theorem C72_terminates_partial (w : World R V) (c : Cfg) (b : Body R V) (hw : WF w b) (mh : Nat) (hm : c.maxHeight = some mh) (fuel : Nat) (hf : mh < fuel) :
    simulateSimple w c fuel b ≠ .ok none := by
  have hfr : Fresh w ({ height := 0, start := c.roundN 0, body := b, trace := [], hits := some [], child := [] } : Rec R V) :=
    ⟨hw, rfl, fun a ha => by simp [Dict.get?_nil] at ha⟩
  exact run_terminates w c mh hm fuel [] _ hfr (by dsimp only; omega) (by omega)

/-! ### A concrete run

A heater `a`: the temperature `x` rises by 1 per second in mode 1 and falls in mode 0; it is switched off at 2 and on at 0; an assertion
demands that the temperature of the other agent `b`, which rises by 1 per second, is below 5. -/

/-- The state definitions. -/
def exHeatDef : Def := ⟨["x"], ["mode"], []⟩

/-- The logic of the heater. -/
def exHeatCtl (e : Dict String ℤ) (r : StateDict ℤ) : Outcome ℤ :=
  if (r.any (fun x => x.1 == "b" && x.2.1.state == [5])) then .failed (some "too hot")
  else if Dict.get? e "x" = some 2 ∧ Dict.get? e "mode" = some 1 then .ret e (Dict.set e "mode" 0)
  else if Dict.get? e "x" = some 0 ∧ Dict.get? e "mode" = some 0 then .ret e (Dict.set e "mode" 1)
  else .ret e e

/-- The two agents. -/
def exHeatAgents : List (String × Logic (StateDict ℤ) ℤ) :=
  [("b", ⟨0, false, [exHeatDef], exHeatDef, none, fun _ _ => true, fun e _ => .ret e e⟩), ("a", ⟨1, true, [exHeatDef], exHeatDef, none, fun _ _ => true, exHeatCtl⟩)]

/-- The system. -/
def exHeatBody : Body (StateDict ℤ) ℤ := ⟨exHeatAgents, [("b", [1]), ("a", [1])], [("b", [0]), ("a", [0])], [("b", []), ("a", [])]⟩

/-- Its dynamics, sampled every second for 10 seconds. -/
def exHeatWorld : World (StateDict ℤ) ℤ :=
  ⟨fun _ sd => sd, fun _ => [], fun _ m i _ => match m, i with
    | [m], [x] => (List.range 10).map (fun (k : Nat) => ⟨(k : ℚ), [x + (2 * m - 1) * (k : ℤ)]⟩)
    | _, _ => []⟩

/-- The call. -/
def exHeatCfg : Cfg := ⟨none, 10, id, id⟩

theorem exHeat_wf : WF exHeatWorld exHeatBody := by
  refine ⟨by decide +kernel, by simp [exHeatBody, exHeatAgents], ?_, ?_, ?_⟩
  · intro a l ha hd
    have hl : l = ⟨1, true, [exHeatDef], exHeatDef, none, fun _ _ => true, exHeatCtl⟩ := by
      rcases List.mem_cons.1 ha with ha | ha
      · have hl := congrArg Prod.snd ha
        dsimp only at hl
        subst hl
        exact absurd rfl hd.1
      · exact congrArg Prod.snd (List.mem_singleton.1 ha)
    subst hl
    refine ⟨by decide +kernel, rfl, by decide +kernel, by decide +kernel, ?_⟩
    intro e r e' out h
    dsimp only at h
    unfold exHeatCtl at h
    split at h
    · cases h
    · split at h
      · injection h with h1 h2; exact h1.symm
      · split at h
        · injection h with h1 h2; exact h1.symm
        · injection h with h1 h2; exact h1.symm
  · intro a l m ha hd hm
    have hmem := Dict.mem_of_get? hm
    have hl : l.ego = exHeatDef := by
      rcases List.mem_cons.1 ha with ha | ha
      · exact congrArg (fun p => p.2.ego) ha
      · exact congrArg (fun p => p.2.ego) (List.mem_singleton.1 ha)
    rw [hl]
    rcases List.mem_cons.1 hmem with h | h
    · exact congrArg (fun p => p.2.length) h
    · exact congrArg (fun p => p.2.length) (List.mem_singleton.1 h)
  · intro a l m i t row ha hd hrow
    have hl : l.ego = exHeatDef := by
      rcases List.mem_cons.1 ha with ha | ha
      · exact congrArg (fun p => p.2.ego) ha
      · exact congrArg (fun p => p.2.ego) (List.mem_singleton.1 ha)
    rw [hl]
    unfold exHeatWorld at hrow
    dsimp only at hrow
    split at hrow
    · obtain ⟨k, _, rfl⟩ := List.mem_map.1 hrow; rfl
    · cases hrow

/-- What a run shows of one node: the start time, the child, the mode and initial values of `a`, and the assertions. -/
structure ExView where
  start : ℚ
  child : List Nat
  mode  : Option (List ℤ)
  init  : Option (List ℤ)
  hits  : Option (List (String × String))
deriving DecidableEq

/-- What a run shows. -/
def exView {R : Type} (r : Except Err (Option (List (Rec R ℤ)))) : Option (List ExView) :=
  match r with
  | .ok (some nodes) => some (nodes.map (fun n => ⟨n.start, n.child, Dict.get? n.body.mode "a", Dict.get? n.body.init "a", n.hits⟩))
  | _ => none

/-- The heater is switched off at 2 seconds and on at 4; at 5 seconds the assertion fails. -/
theorem exHeat_run : exView (simulateSimple exHeatWorld exHeatCfg 5 exHeatBody) =
    some [⟨0, [1], some [1], some [0], none⟩, ⟨2, [2], some [0], some [2], none⟩, ⟨4, [], some [1], some [0], some [("a", "too hot")]⟩] := by decide +kernel

example : ∃ nodes, simulateSimple exHeatWorld exHeatCfg 5 exHeatBody = .ok (some nodes) ∧ nodes.length = 3 ∧ Run exHeatWorld exHeatCfg nodes := by
  have h := exHeat_run
  cases hr : simulateSimple exHeatWorld exHeatCfg 5 exHeatBody with
  | error e => rw [hr] at h; cases h
  | ok o =>
    cases o with
    | none => rw [hr] at h; cases h
    | some nodes =>
      rw [hr] at h
      have hl : nodes.length = 3 := by
        have := congrArg (fun o => (o.getD []).length) h
        simpa [exView] using this
      exact ⟨nodes, rfl, hl, (C72_follows_partial _ _ _ _ exHeat_wf nodes hr).1⟩

example : simulateSimple exHeatWorld { exHeatCfg with maxHeight := some 2 } 3 exHeatBody ≠ .ok none :=
  C72_terminates_partial _ _ _ exHeat_wf 2 rfl 3 (by omega)

/-! ### Counterexamples

One agent `a` with mode 1 and state 0, which does not move. -/

/-- The agent, with this state definition, static values and decision logic. -/
def exStill (df : Def) (defs : List Def) (static : List ℤ) (paths : Bool) (ctl : Dict String ℤ → Unit → Outcome ℤ) : Body Unit ℤ :=
  ⟨[("a", ⟨1, paths, defs, df, none, fun _ _ => true, ctl⟩)], [("a", [1])], [("a", [0])], [("a", static)]⟩

/-- Its dynamics. -/
def exStillWorld : World Unit ℤ := ⟨fun _ _ => (), fun _ => [], fun _ _ i _ => [⟨0, i⟩]⟩

/-- Leaves mode 1. -/
def exLeave (e : Dict String ℤ) (_ : Unit) : Outcome ℤ := if Dict.get? e "mode" = some 1 then .ret e (Dict.set e "mode" 0) else .ret e e

/-- C72 fails for a state definition with a static variable (named `type`): after a switch the value of the static variable has become a
second continuous state of the agent. -/
theorem C72_static_violated : ∃ nodes, simulateSimple exStillWorld exHeatCfg 5 (exStill ⟨["x"], ["mode"], ["type"]⟩ [⟨["x"], ["mode"], ["type"]⟩] [7] true exLeave) = .ok (some nodes) ∧
    exView (.ok (some nodes)) = some [⟨0, [1], some [1], some [0], none⟩, ⟨0, [], some [0], some [0, 7], none⟩] ∧ ¬ Run exStillWorld exHeatCfg nodes := by
  have h : exView (simulateSimple exStillWorld exHeatCfg 5 (exStill ⟨["x"], ["mode"], ["type"]⟩ [⟨["x"], ["mode"], ["type"]⟩] [7] true exLeave)) =
    some [⟨0, [1], some [1], some [0], none⟩, ⟨0, [], some [0], some [0, 7], none⟩] := by decide +kernel
  have hb : (match simulateSimple exStillWorld exHeatCfg 5 (exStill ⟨["x"], ["mode"], ["type"]⟩ [⟨["x"], ["mode"], ["type"]⟩] [7] true exLeave) with
      | .ok (some (n :: _)) => some (n.body.agents.map (fun a => (a.1, a.2.ego.cont)))
      | _ => none) = some [("a", ["x"])] := by decide +kernel
  cases hr : simulateSimple exStillWorld exHeatCfg 5 (exStill ⟨["x"], ["mode"], ["type"]⟩ [⟨["x"], ["mode"], ["type"]⟩] [7] true exLeave) with
  | error e => rw [hr] at h; cases h
  | ok o =>
    cases o with
    | none => rw [hr] at h; cases h
    | some nodes =>
      rw [hr] at h hb
      refine ⟨nodes, rfl, h, ?_⟩
      intro hrun
      have hl : nodes.length = 2 := by
        have := congrArg (fun o => (o.getD []).length) h
        simpa [exView] using this
      obtain ⟨n, c, rfl⟩ : ∃ n c, nodes = [n, c] := by
        match nodes, hl with
        | [n, c], _ => exact ⟨n, c, rfl⟩
      injection h with h
      simp only [List.map_cons, List.map_nil, List.cons.injEq, ExView.mk.injEq, and_true] at h
      obtain ⟨⟨_, _, h1, _, _⟩, ⟨_, _, h5, h6, _⟩⟩ := h
      dsimp only at hb
      injection hb with hb
      rcases hrun 0 n rfl with ⟨hl', _⟩ | ⟨m, full, k, hm, _, _, _, hc⟩
      · simp at hl'
      · injection hm with hm
        subst hm
        obtain ⟨l, hmem, hcont⟩ : ∃ l, ("a", l) ∈ n.body.agents ∧ l.ego.cont = ["x"] := by
          cases hag : n.body.agents with
          | nil => rw [hag] at hb; cases hb
          | cons p ps =>
            rw [hag] at hb
            injection hb with hb _
            injection hb with hb1 hb2
            exact ⟨p.2, by rw [← hb1]; exact List.mem_cons_self, hb2⟩
        rcases hc.state "a" l hmem with ⟨e, r, dest, init, _, _, hsw, _, hi⟩ | ⟨_, hm, _⟩
        · obtain ⟨out, _, _, _, hf⟩ := hsw
          rw [h6] at hi
          injection hi with hi
          have := hf.length_eq
          rw [hcont, ← hi] at this
          simp at this
        · rw [h5, h1] at hm
          simp at hm

/-- C72 fails for a decision logic that changes `ego` and returns it: the change is ignored. -/
theorem C72_in_place_violated :
    exView (simulateSimple exStillWorld exHeatCfg 5 (exStill exHeatDef [exHeatDef] [] true (fun e _ => .ret (Dict.set e "mode" 0) (Dict.set e "mode" 0)))) =
    some [⟨0, [], some [1], some [0], none⟩] := by decide +kernel

/-- C72 fails for a decision logic with assertions but without transitions: it is not run, and the assertion that fails is not reported. -/
theorem C72_no_paths_violated :
    exView (simulateSimple exStillWorld exHeatCfg 5 (exStill exHeatDef [exHeatDef] [] false (fun _ _ => .failed (some "unsafe")))) =
    some [⟨0, [], some [1], some [0], none⟩] := by decide +kernel

/-- C72 fails for two state definitions with the same mode variable: the call raises `KeyError`. -/
theorem C72_shared_mode_violated :
    (match simulateSimple exStillWorld exHeatCfg 5 (exStill exHeatDef [exHeatDef, ⟨["y"], ["mode"], []⟩] [] true exLeave) with | .error e => some e | .ok _ => none) = some .keyError := by decide +kernel

/-- C72 fails if another agent is in a mode (here 7) that the modes of this controller (0 and 1) do not have: the call raises `KeyError`, although the decision logic does
not look at the mode of the other agent. -/
theorem C72_other_modes_violated :
    (match simulateSimple ({ exStillWorld with fields := fun _ => [("mode", 7)] } : World Unit ℤ) exHeatCfg 5
      ⟨[("a", ⟨1, true, [exHeatDef], exHeatDef, none, fun _ v => v == 0 || v == 1, exLeave⟩)], [("a", [1])], [("a", [0])], [("a", [])]⟩ with
      | .error e => some e | .ok _ => none) = some .keyError ∧
    (match simulateSimple ({ exStillWorld with fields := fun _ => [("mode", 0)] } : World Unit ℤ) exHeatCfg 5
      ⟨[("a", ⟨1, true, [exHeatDef], exHeatDef, none, fun _ v => v == 0 || v == 1, exLeave⟩)], [("a", [1])], [("a", [0])], [("a", [])]⟩ with
      | .error e => some e | .ok _ => none) = none := by decide +kernel

/-- C72 fails for an assertion without message: the call raises `IndexError`. -/
theorem C72_no_message_violated :
    (match simulateSimple exStillWorld exHeatCfg 5 (exStill exHeatDef [exHeatDef] [] true (fun _ _ => .failed none)) with | .error e => some e | .ok _ => none) = some .indexError := by decide +kernel

/-- Changes between mode 0 and 1 at every sample. -/
def exToggle (e : Dict String ℤ) (_ : Unit) : Outcome ℤ := .ret e (Dict.set e "mode" (if Dict.get? e "mode" = some 1 then 0 else 1))

/-- The node number `h` of the run of this decision logic. -/
def exToggleNode (h : Nat) (m : Bool) : Rec Unit ℤ :=
  ⟨h, 0, ⟨(exStill exHeatDef [exHeatDef] [] true exToggle).agents, [("a", [if m then 1 else 0])], [("a", [0])], [("a", [])]⟩, [], some [], []⟩

theorem exToggle_expand (h : Nat) (m : Bool) : ∃ n', expand exStillWorld id (exToggleNode h m) 10 = .ok (n', [exToggleNode (h + 1) (!m)]) := by
  refine ⟨{ exToggleNode h m with trace := [("a", [⟨0, [0]⟩])], hits := none }, ?_⟩
  cases m <;>
  simp [expand, exToggleNode, exStill, exStillWorld, traces, exHeatDef, Dict.get?, Dict.set, getTransition, scan, sample, stateDict, deciders, decAt, decision, bind, Except.bind, pure,
    Except.pure, Except.map, egoFields, convertOk, discCount, exToggle, decideOf, sameFields, getFields, discField, Dict.keys, record, groupTrans, cutTraces, product, mkChild, firstTime, restStep]

/-- C72: without `max_height`, the call does not return for a decision logic that always changes the mode. -/
theorem C72_zeno_violated (fuel : Nat) : simulateSimple exStillWorld exHeatCfg fuel (exStill exHeatDef [exHeatDef] [] true exToggle) = .ok none := by
  have key : ∀ (fuel h : Nat) (m : Bool) (pre : List (Rec Unit ℤ)), run exStillWorld exHeatCfg fuel (pre ++ [exToggleNode h m]) [pre.length] = .ok none := by
    intro fuel
    induction fuel with
    | zero => intro h m pre; rfl
    | succ fuel ih =>
      intro h m pre
      rw [run, List.getElem?_concat_length]
      dsimp only
      have hs : exHeatCfg.skips (exToggleNode h m) = false := by
        rw [← Bool.not_eq_true, skips_iff]
        rintro (⟨m', h1, _⟩ | h1)
        · cases h1
        · have : (10 : ℚ) - 0 ≤ 0 := h1
          norm_num at this
      rw [hs]
      have hrem : exHeatCfg.round10 (exHeatCfg.horizon - (exToggleNode h m).start) = 10 := by
        change (10 : ℚ) - 0 = 10
        norm_num
      rw [hrem]
      obtain ⟨n', hn'⟩ := exToggle_expand h m
      change (if false = true then _ else (expand exStillWorld id (exToggleNode h m) 10).bind _) = _
      rw [hn', if_neg (by simp)]
      have hset : ∀ x : Rec Unit ℤ, (pre ++ [exToggleNode h m]).set pre.length x = pre ++ [x] := by
        intro x
        rw [List.set_append_right _ _ (Nat.le_refl _)]
        simp
      simp only [Except.bind]
      rw [hset]
      have := ih (h + 1) (!m) (pre ++ [{ n' with child := n'.child ++ [pre.length + 1] }])
      simpa [List.range_succ] using this
  exact key fuel 0 true []

end Verif.Props
