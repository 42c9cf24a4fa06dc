import Verif.Spec.Execution
import Verif.Spec.Sim

/-!
When the simulator and the verifier work on the same scenario (C79). Both models have their own types of controllers, agents and values: the
simulator evaluates Python expressions on values of one type `U`, the verifier reads guards and resets as terms. `num` and `sym` are the values
that stand for a number and for a mode.
-/

set_option autoImplicit false

namespace Verif.Both

open Verif.Rst.Spec Verif.Rect.Spec

variable {Env U S G K V D : Type}

/-- The same state of all agents. -/
def Same (num : K → U) (sym : V → U) (snap : Ver.Spec.Snap K V) (sd : Sim.StateDict U) : Prop :=
  List.Forall₂ (fun (x : String × List K × List V × List V) (y : String × Sim.Row U × List U × List U) =>
    y.1 = x.1 ∧ y.2.1.state = x.2.1.map num ∧ y.2.2.1 = x.2.2.1.map sym ∧ y.2.2.2 = x.2.2.2.map sym) snap sd

section
variable [Field K] [LinearOrder K]

/-- The same path of a controller: the same variable, guards that mean the same, and the same new value. -/
def SamePath (num : K → U) (sym : V → U) (M : Ver.Spec.Meaning S G K V D) (vw : Ver.World S K V) (sw : Sim.World Env U) (a : String)
    (dl : Ver.Logic S G K V D) (p : Ver.Path S G K V D) (q : Sim.Path Env U) : Prop :=
  q.var = p.var ∧ ∀ (snap : Ver.Spec.Snap K V) (sd : Sim.StateDict U), Same num sym snap sd →
    (q.cond (sw.sense a sd) = true ↔ M.holds p a snap) ∧
    (M.holds p a snap → p.var ∈ dl.cont → ∃ e x, p.val = .arith e ∧ value vw.rd (M.vars p a snap) e = some x ∧ q.val (sw.sense a sd) = num x) ∧
    (M.holds p a snap → p.var ∈ dl.disc → ∃ y, NewMode (M.disc p a snap) p.val y ∧ q.val (sw.sense a sd) = sym y)

/-- The same controller. -/
structure SameLogic (num : K → U) (sym : V → U) (M : Ver.Spec.Meaning S G K V D) (vw : Ver.World S K V) (sw : Sim.World Env U) (a : String)
    (dl : Ver.Logic S G K V D) (sl : Sim.Logic Env U) : Prop where
  nargs    : sl.nargs = dl.nargs
  cont     : sl.cont = dl.cont
  disc     : sl.disc = dl.disc
  discType : sl.discType = dl.discType
  paths    : List.Forall₂ (SamePath num sym M vw sw a dl) dl.paths sl.paths

/-- The same scenario: the same agents with the same controllers, the same map, and a simulation that begins in the initial set. -/
structure SameScenario (num : K → U) (sym : V → U) (M : Ver.Spec.Meaning S G K V D) (vw : Ver.World S K V) (vb : Ver.Body S G K V D)
    (sw : Sim.World Env U) (sb : Sim.Body Env U) : Prop where
  agents : List.Forall₂ (fun (a : String × Ver.Logic S G K V D) (a' : String × Sim.Logic Env U) =>
    a'.1 = a.1 ∧ SameLogic num sym M vw sw a.1 a.2 a'.2) vb.agents sb.agents
  map    : ∀ st sm dm, sw.mapH (Option.map sym st) (sm.map sym) (dm.map sym) = (vw.mapH st sm dm).map sym
  static : ∀ a ∈ vb.agents, ∃ s, Dict.get? vb.static a.1 = some s ∧ Dict.get? sb.static a.1 = some (s.map sym)
  mode   : ∀ a ∈ vb.agents, ∃ m, Dict.get? vb.mode a.1 = some m ∧ Dict.get? sb.mode a.1 = some (m.map sym) ∧ m.length = a.2.disc.length
  init   : ∀ a ∈ vb.agents, ∃ x r, Dict.get? sb.init a.1 = some (x.map num) ∧ Dict.get? vb.init a.1 = some [r] ∧ Inside x r ∧
    x.length = a.2.cont.length

end

/-- The simulation of a single agent, for `N - k` steps of length `dt`, consists of states at these steps of a trajectory of the agent. -/
def SimulatesFlow (num : K → U) (sym : V → U) (sw : Sim.World Env U) (flow : String → List V → (Nat → List K) → Prop) (dt : ℚ) (N : Nat) : Prop :=
  ∀ (a : String) (m : List V) (x : List K) (k : Nat), ∃ ρ : Nat → List K, flow a m ρ ∧ ρ 0 = x ∧ (∀ j, (ρ j).length = x.length) ∧
    ∀ (j : Nat) (row : Sim.Row U), (sw.sim a (m.map sym) (x.map num) (((N - k : Nat) : ℚ) * dt))[j]? = some row →
      row = ⟨(j : ℚ) * dt, (ρ j).map num⟩

/-- At no sample of the traces do the guards of two agents hold. -/
def OneAtATime (sw : Sim.World Env U) (u : Verif.Spec.Label (Sim.Body Env U) (Sim.Trace U) Sim.Hits) : Prop :=
  ∀ (i : Nat) (a a' : String) (dl dl' : Sim.Logic Env U) (env env' : Env), Spec.Controlled u.body a dl → Spec.Controlled u.body a' dl' →
    Spec.Sees sw u.body u.trace i a env → Spec.Sees sw u.body u.trace i a' env' → Spec.Enabled dl env → Spec.Enabled dl' env' → a = a'

/-- The node `v` of the verifier's tree contains what the node `u` of the simulator's tree shows: the modes are the same, and every state before the
horizon, as long as no guard has held before, is in a rectangle for its time. -/
def Contains [LE K] (num : K → U) (sym : V → U) (sw : Sim.World Env U) (agents : List String) (horizon : ℚ)
    (u : Verif.Spec.Label (Sim.Body Env U) (Sim.Trace U) Sim.Hits) (v : Verif.Spec.Label (Ver.Body S G K V D) (Ver.Trace K) Ver.Hits) : Prop :=
  (∀ a ∈ agents, ∃ m, Dict.get? v.body.mode a = some m ∧ Dict.get? u.body.mode a = some (m.map sym)) ∧
  ∀ (k : Nat) (sd : Sim.StateDict U), Spec.Snapshot u.body u.trace k sd → (∀ j, j < k → Spec.NoGuard sw u.body u.trace j) →
    ∀ x ∈ sd, x.2.1.time < horizon → ∃ segs s p, Dict.get? v.trace x.1 = some segs ∧ s ∈ segs ∧ s.t0 = x.2.1.time ∧
      x.2.1.state = p.map num ∧ Inside p s.box

end Verif.Both
