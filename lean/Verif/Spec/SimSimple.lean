import Verif.Model.SimSimple

/-!
What it means that a simulation follows the decision logic as Python runs it. Only the data types of the model are used.
-/

set_option autoImplicit false

namespace Verif.Spec.Simple

open Verif.Sim (Row StateDict)
open Verif.Simple

variable {R V : Type}

/-- `sd` lists, for all agents, their rows number `i`, their modes and static values. -/
def Snapshot (b : Body R V) (tr : Trace V) (i : Nat) (sd : StateDict V) : Prop :=
  List.Forall₂ (fun (a : String × Logic R V) (x : String × Row V × List V × List V) =>
    x.1 = a.1 ∧ (∃ rows, Dict.get? tr a.1 = some rows ∧ rows[i]? = some x.2.1) ∧
    Dict.get? b.mode a.1 = some x.2.2.1 ∧ Dict.get? b.static a.1 = some x.2.2.2) b.agents sd

/-- At sample `i` the decision logic of the agent `a` is called with the attributes `e` of `ego` and the other arguments `r`: the attributes are the
variables of its state definition with their values. -/
def Sees (w : World R V) (b : Body R V) (tr : Trace V) (i : Nat) (a : String) (l : Logic R V) (e : Dict String V) (r : R) : Prop :=
  ∃ sd row m s, Snapshot b tr i sd ∧ (a, row, m, s) ∈ sd ∧ e = (l.ego.cont ++ l.ego.disc ++ l.ego.static).zip (row.state ++ m ++ s) ∧ r = w.others a sd

/-- The decision logic returns a state equal to its argument. -/
def Stays (l : Logic R V) (e : Dict String V) (r : R) : Prop :=
  ∃ out, l.ctl e r = .ret e out ∧ ∀ x, Dict.get? out x = Dict.get? e x

/-- The decision logic returns another state, with the modes `dest` and the values `init` of the continuous variables. -/
def Switches (l : Logic R V) (e : Dict String V) (r : R) (dest init : List V) : Prop :=
  ∃ out, l.ctl e r = .ret e out ∧ (∃ x, Dict.get? out x ≠ Dict.get? e x) ∧
    List.Forall₂ (fun x v => Dict.get? out x = some v) l.ego.disc dest ∧ List.Forall₂ (fun x v => Dict.get? out x = some v) l.ego.cont init

/-- An assertion of the decision logic fails, with this message. -/
def Fails (l : Logic R V) (e : Dict String V) (r : R) (label : String) : Prop := l.ctl e r = .failed (some label)

/-- The agent has a decision logic from which transitions were extracted. -/
def Decides (l : Logic R V) : Prop := l.nargs ≠ 0 ∧ l.hasPaths = true

/-- At sample `i` no agent wants to change anything, and no assertion fails. -/
def Quiet (w : World R V) (b : Body R V) (tr : Trace V) (i : Nat) : Prop :=
  ∀ a l, (a, l) ∈ b.agents → Decides l → ∃ e r, Sees w b tr i a l e r ∧ Stays l e r

/-- The simulated traces of all agents, from the initial state and mode of the node. -/
def Simulated (w : World R V) (b : Body R V) (start remain : ℚ) (tr : Trace V) : Prop :=
  ∀ a l, (a, l) ∈ b.agents → ∃ m i, Dict.get? b.mode a = some m ∧ Dict.get? b.init a = some i ∧
    Dict.get? tr a = some ((w.sim a m i remain).map (fun row => { row with time := row.time + start }))

/-- The node ends with its trace: no agent wants to change anything at any sample that all agents have. -/
structure Ends (w : World R V) (n : Rec R V) (full : Trace V) : Prop where
  child : n.child = []
  hits  : n.hits = none
  trace : ∀ a l, (a, l) ∈ n.body.agents → Dict.get? n.trace a = Dict.get? full a
  quiet : ∀ i, (∀ a l rows, (a, l) ∈ n.body.agents → Dict.get? full a = some rows → i < rows.length) → Quiet w n.body full i

/-- The node ends with failing assertions at sample `k`, the first sample where anything happens. -/
structure Stopped (w : World R V) (n : Rec R V) (full : Trace V) (k : Nat) (labels : Dict String String) : Prop where
  child : n.child = []
  hits  : n.hits = some labels
  some_ : labels ≠ []
  trace : ∀ a l, (a, l) ∈ n.body.agents → Dict.get? n.trace a = (Dict.get? full a).map (List.take (k + 1))
  quiet : ∀ i, i < k → Quiet w n.body full i
  fails : ∀ a label, Dict.get? labels a = some label ↔ ∃ l e r, (a, l) ∈ n.body.agents ∧ Decides l ∧ Sees w n.body full k a l e r ∧ Fails l e r label

/-- The node `c` continues `n` at sample `k`, the first sample where anything happens: exactly the agents that want to change do so. -/
structure Continues (w : World R V) (roundN : ℚ → ℚ) (n c : Rec R V) (full : Trace V) (k : Nat) : Prop where
  hits   : n.hits = none
  trace  : ∀ a l, (a, l) ∈ n.body.agents → Dict.get? n.trace a = (Dict.get? full a).map (List.take (k + 1))
  quiet  : ∀ i, i < k → Quiet w n.body full i
  start  : ∃ a l rows row, n.body.agents.head? = some (a, l) ∧ Dict.get? full a = some rows ∧ rows[k]? = some row ∧ c.start = roundN row.time
  height : c.height = n.height + 1
  agents : c.body.agents = n.body.agents ∧ c.body.static = n.body.static
  change : ∃ a l e r dest init, (a, l) ∈ n.body.agents ∧ Decides l ∧ Sees w n.body full k a l e r ∧ Switches l e r dest init
  state  : ∀ a l, (a, l) ∈ n.body.agents →
    (∃ e r dest init, Decides l ∧ Sees w n.body full k a l e r ∧ Switches l e r dest init ∧
      Dict.get? c.body.mode a = some dest ∧ Dict.get? c.body.init a = some init) ∨
    ((Decides l → ∃ e r, Sees w n.body full k a l e r ∧ Stays l e r) ∧ Dict.get? c.body.mode a = Dict.get? n.body.mode a ∧
      ∃ rows row, Dict.get? full a = some rows ∧ rows[k]? = some row ∧ Dict.get? c.body.init a = some row.state)

/-- The node is not simulated: it is too deep or there is no time left. -/
def Skipped (c : Cfg) (n : Rec R V) : Prop :=
  n.child = [] ∧ ((∃ m, c.maxHeight = some m ∧ m ≤ n.height + 1) ∨ c.round10 (c.horizon - n.start) ≤ 0)

/-- `nodes` is one run of the system, from the root to the only leaf: every node but the last has exactly the next node as its child. -/
def Run (w : World R V) (c : Cfg) (nodes : List (Rec R V)) : Prop :=
  ∀ (i : Nat) (n : Rec R V), nodes[i]? = some n →
    (i + 1 = nodes.length ∧ (Skipped c n ∨ ∃ full, Simulated w n.body n.start (c.round10 (c.horizon - n.start)) full ∧
      (Ends w n full ∨ ∃ k labels, Stopped w n full k labels))) ∨
    (∃ m full k, nodes[i + 1]? = some m ∧ n.child = [i + 1] ∧ Simulated w n.body n.start (c.round10 (c.horizon - n.start)) full ∧
      0 < c.round10 (c.horizon - n.start) ∧ Continues w c.roundN n m full k)

/-- A decision logic for which the state is read back correctly: distinct names, no static variable, continuous variables are not mode variables
of another state definition, and the decision logic does not change its argument. -/
structure Plain (l : Logic R V) : Prop where
  nodup  : (l.ego.cont ++ l.ego.disc).Nodup
  static : l.ego.static = []
  cont   : ∀ x ∈ l.ego.cont, ∀ d ∈ l.defs, x ∉ d.disc
  disc   : ∀ x ∈ l.ego.disc, ∃ d ∈ l.defs, x ∈ d.disc
  pure   : ∀ e r e' out, l.ctl e r = .ret e' out → e' = e

/-- Distinct agents, plain decision logics, and values for all variables. -/
structure WF (w : World R V) (b : Body R V) : Prop where
  names  : (b.agents.map Prod.fst).Nodup
  some_  : b.agents ≠ []
  plain  : ∀ a l, (a, l) ∈ b.agents → Decides l → Plain l
  mode   : ∀ a l m, (a, l) ∈ b.agents → Decides l → Dict.get? b.mode a = some m → m.length = l.ego.disc.length
  rows   : ∀ a l m i t row, (a, l) ∈ b.agents → Decides l → row ∈ w.sim a m i t → row.state.length = l.ego.cont.length

end Verif.Spec.Simple
