import Verif.Model.Simulator
import Verif.Spec.TrackMode

/-!
Specification of one simulation step, in terms of what agents observe at a sample. Only the data types of the model
(`Path`, `Logic`, `Row`, `Body`, `World`) are used, not its functions.
-/

set_option autoImplicit false

namespace Verif.Spec
open Verif.Sim

variable {Env V : Type}

/-- State variable names are distinct; discrete variables are the ones whose name contains "mode". -/
structure Logic.WF (dl : Logic Env V) : Prop where
  discNodup : dl.disc.Nodup
  contNodup : dl.cont.Nodup
  discMode  : ∀ x ∈ dl.disc, "mode".toList <:+: x.toList
  contMode  : ∀ x ∈ dl.cont, ¬ "mode".toList <:+: x.toList

/-- Agent names are distinct and every controller is well formed. -/
structure Body.WF (b : Body Env V) : Prop where
  names  : (b.agents.map Prod.fst).Nodup
  logics : ∀ a ∈ b.agents, Logic.WF a.2

/-- `sd` lists, for all agents, their rows number `i`, their modes and static values. -/
def Snapshot (b : Body Env V) (tr : Trace V) (i : Nat) (sd : StateDict V) : Prop :=
  List.Forall₂ (fun (a : String × Logic Env V) (x : String × Row V × List V × List V) =>
    x.1 = a.1 ∧ (∃ rows, Dict.get? tr a.1 = some rows ∧ rows[i]? = some x.2.1) ∧
    Dict.get? b.mode a.1 = some x.2.2.1 ∧ Dict.get? b.static a.1 = some x.2.2.2) b.agents sd

/-- `env` is what the agent named `a` senses at sample `i`. -/
def Sees (w : World Env V) (b : Body Env V) (tr : Trace V) (i : Nat) (a : String) (env : Env) : Prop :=
  ∃ sd, Snapshot b tr i sd ∧ env = w.sense a sd

/-- some guard holds -/
def Enabled (dl : Logic Env V) (env : Env) : Prop := ∃ p ∈ dl.paths, p.cond env = true

/-- labels of the asserts with a true precondition and a false condition -/
def failing (dl : Logic Env V) (env : Env) : List String :=
  (dl.asserts.filter (fun a => decide (a.pre env = true ∧ a.cond env = false))).map Assertion.label

/-- `a` is an agent with a controller, i.e. a decision logic with arguments. -/
def Controlled (b : Body Env V) (a : String) (dl : Logic Env V) : Prop :=
  (a, dl) ∈ b.agents ∧ dl.nargs ≠ 0

/-- No guard of any agent holds at sample `i`. -/
def NoGuard (w : World Env V) (b : Body Env V) (tr : Trace V) (i : Nat) : Prop :=
  ∀ a dl env, Controlled b a dl → Sees w b tr i a env → ¬ Enabled dl env

/-- No assert fails at sample `i`; the code looks at agents with at least one transition only (`strict = false`), the
English property at all agents (`strict = true`). -/
def NoFailure (strict : Bool) (w : World Env V) (b : Body Env V) (tr : Trace V) (i : Nat) : Prop :=
  ∀ a dl env, Controlled b a dl → (strict = true ∨ dl.paths ≠ []) → Sees w b tr i a env → failing dl env = []

/-- One outcome of the controller at an observation: exactly the variables written by an enabled path change, each to the
value of one enabled path for that variable, all values read in the old state. -/
def Fires (dl : Logic Env V) (env : Env) (state mode dest init : List V) : Prop :=
  ∃ choice : String → Option (Path Env V),
    (∀ v p, choice v = some p → p ∈ dl.paths ∧ p.var = v ∧ p.cond env = true) ∧
    (∀ p ∈ dl.paths, p.cond env = true → (choice p.var).isSome) ∧
    (∃ v, (choice v).isSome) ∧
    dest.length = mode.length ∧ init.length = state.length ∧
    (∀ i : Nat, dest[i]? = match dl.disc[i]?.bind choice with
      | some p => some (p.val env)
      | none => mode[i]?) ∧
    (∀ i : Nat, init[i]? = match dl.cont[i]?.bind choice with
      | some p => some (p.val env)
      | none => state[i]?)

/-- The map permits the mode change: either neither the agent mode nor the track changes, or the new track is the one the
map prescribes. -/
def MapPermits (w : World Env V) (dl : Logic Env V) (src dest : List V) : Prop :=
  ∃ sm st dm dt, ModeOf dl.discType src sm ∧ TrackOf dl.discType src st ∧ ModeOf dl.discType dest dm ∧ TrackOf dl.discType dest dt ∧
    ((sm = dm ∧ st = dt) ∨ dt = w.mapH st sm dm)

/-- The transition of agent `a` at sample `i` from the recorded row: destination mode `dest`, reset state `init`. -/
def CanSwitch (w : World Env V) (b : Body Env V) (tr : Trace V) (i : Nat) (a : String) (dest init : List V) : Prop :=
  ∃ dl env rows row mode, Controlled b a dl ∧ Sees w b tr i a env ∧ Dict.get? tr a = some rows ∧ rows[i]? = some row ∧
    Dict.get? b.mode a = some mode ∧ Fires dl env row.state mode dest init ∧ MapPermits w dl mode dest

/-- The traces a node works with: inherited ones, and simulations from the initial state (shifted to the node's start time)
for the others. -/
def FullTraces (w : World Env V) (b : Body Env V) (start remain : ℚ) (given full : Trace V) : Prop :=
  ∀ a ∈ b.agents, match Dict.get? given a.1 with
    | some rows => Dict.get? full a.1 = some rows
    | none => ∃ m i, Dict.get? b.mode a.1 = some m ∧ Dict.get? b.init a.1 = some i ∧
        Dict.get? full a.1 = some ((w.sim a.1 m i remain).map (fun r => ⟨r.time + start, r.state⟩))

/-- What a node at depth `k` inherits from its parent: nothing at the root; otherwise, for some agents, the rest of a
simulation of that agent in its current mode, beginning in the agent's current initial state. -/
def Inherited (w : World Env V) (k : Nat) (b : Body Env V) (given : Trace V) : Prop :=
  (k = 0 → given = []) ∧ ∀ a ∈ b.agents, ∀ rows, Dict.get? given a.1 = some rows →
    ∃ m i s rem n r, Dict.get? b.mode a.1 = some m ∧
      rows = ((w.sim a.1 m i rem).map (fun r => (⟨r.time + s, r.state⟩ : Row V))).drop n ∧
      rows.head? = some r ∧ Dict.get? b.init a.1 = some r.state

/-- All agents' traces cut by `f`. -/
def CutTraces (b : Body Env V) (f : List (Row V) → List (Row V)) (full cut : Trace V) : Prop :=
  ∀ a ∈ b.agents, ∃ rows, Dict.get? full a.1 = some rows ∧ Dict.get? cut a.1 = some (f rows)

end Verif.Spec
