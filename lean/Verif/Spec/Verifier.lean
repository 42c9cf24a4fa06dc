import Verif.Model.Verifier
import Verif.Spec.Reset
import Verif.Spec.TrackMode

/-!
What one step of the reachability analysis should achieve, in terms of single states of all agents. Only the data types of the model are
used here, and of its functions `applyReset`'s companions in `Spec/Reset.lean`.
-/

set_option autoImplicit false

namespace Verif.Ver.Spec

open Verif.Ver Verif.Rect.Spec Verif.Rst.Spec

variable {S G K V D : Type}

/-- The state of all agents at one moment: name, values of the continuous variables, mode and static values. -/
abbrev Snap (K V : Type) := List (String × List K × List V × List V)

/-- Variable names are distinct, and the discrete ones are those that contain "mode". -/
structure Logic.WF (dl : Logic S G K V D) : Prop where
  discNodup : dl.disc.Nodup
  contNodup : dl.cont.Nodup
  discMode  : ∀ x ∈ dl.disc, Sim.hasMode x = true
  contMode  : ∀ x ∈ dl.cont, Sim.hasMode x = false

/-- Agent names are distinct and every controller is well formed. -/
structure Body.WF (b : Body S G K V D) : Prop where
  names  : (b.agents.map Prod.fst).Nodup
  logics : ∀ a ∈ b.agents, Logic.WF a.2

/-- `sd` lists, for all agents, their rectangles number `i`, their modes and static values. -/
def Boxes (b : Body S G K V D) (tr : Trace K) (i : Nat) (sd : StateDict K V) : Prop :=
  List.Forall₂ (fun (a : String × Logic S G K V D) (x : String × Seg K × List V × List V) =>
    x.1 = a.1 ∧ (∃ segs, Dict.get? tr a.1 = some segs ∧ segs[i]? = some x.2.1) ∧
    Dict.get? b.mode a.1 = some x.2.2.1 ∧ Dict.get? b.static a.1 = some x.2.2.2) b.agents sd

/-- The states lie in the rectangles. -/
def Within [LE K] (snap : Snap K V) (sd : StateDict K V) : Prop :=
  List.Forall₂ (fun (x : String × List K × List V × List V) (y : String × Seg K × List V × List V) =>
    x.1 = y.1 ∧ Inside x.2.1 y.2.1.box ∧ x.2.2 = y.2.2) snap sd

/-- `snap` is a state of the tubes at step `i`. -/
def InTube [LE K] (b : Body S G K V D) (tr : Trace K) (i : Nat) (snap : Snap K V) : Prop := ∃ sd, Boxes b tr i sd ∧ Within snap sd

/-- `a` is an agent with a controller, i.e. a decision logic with arguments. -/
def Controlled (b : Body S G K V D) (a : String) (dl : Logic S G K V D) : Prop := (a, dl) ∈ b.agents ∧ dl.nargs ≠ 0

/-- What guards, reset expressions and asserts mean in a single state, for the agent that evaluates them. -/
structure Meaning (S G K V D : Type) where
  /-- the guard of a path is true -/
  holds : Path S G K V D → String → Snap K V → Prop
  /-- the values of the variables in the reset expression of a path -/
  vars  : Path S G K V D → String → Snap K V → Rst.Text → Option K
  /-- the discrete values a path reads -/
  disc  : Path S G K V D → String → Snap K V → D
  /-- precondition and condition of an assert -/
  pre   : Assertion S → String → Snap K V → Prop
  cond  : Assertion S → String → Snap K V → Prop

/-- The question whether guard `p` of agent `a` is satisfied at step `i` is answered with `r`: (maybe, certainly). -/
def Asked (w : World S K V) (b : Body S G K V D) (tr : Trace K) (i : Nat) (a : String) (p : Path S G K V D) (r : Bool × Bool) : Prop :=
  ∃ dl sd0 sd g, Controlled b a dl ∧ p ∈ dl.paths ∧ Boxes b tr 0 sd0 ∧ Boxes b tr i sd ∧
    p.prep (w.sense a sd0) = .ok (some g) ∧ p.check g (w.sense a sd) = .ok r

/-- The guard may be satisfied at step `i`, according to the check. -/
def HitAt (w : World S K V) (b : Body S G K V D) (tr : Trace K) (i : Nat) (a : String) (p : Path S G K V D) : Prop :=
  ∃ c, Asked w b tr i a p (true, c)

/-- The tube is contained in the guard at step `i`, according to the check. -/
def ContainedAt (w : World S K V) (b : Body S G K V D) (tr : Trace K) (i : Nat) (a : String) (p : Path S G K V D) : Prop :=
  ∃ h, Asked w b tr i a p (h, true)

/-- A choice, for the agent `a` at step `i`, of one path for every variable for which a guard may be satisfied, and there is one. -/
def Selects (w : World S K V) (b : Body S G K V D) (tr : Trace K) (i : Nat) (a : String) (dl : Logic S G K V D)
    (sel : String → Option (Path S G K V D)) : Prop :=
  (∀ v p, sel v = some p → p ∈ dl.paths ∧ p.var = v ∧ HitAt w b tr i a p) ∧
  (∀ p ∈ dl.paths, HitAt w b tr i a p → (sel p.var).isSome) ∧ ∃ v, (sel v).isSome

/-- The precondition of the assert is certainly true at step `i`, and its condition is not certainly true, according to the check. -/
def FailsAt (w : World S K V) (b : Body S G K V D) (tr : Trace K) (i : Nat) (a : String) (x : Assertion S) : Prop :=
  ∃ dl sd, Controlled b a dl ∧ x ∈ dl.asserts ∧ Boxes b tr i sd ∧
    x.pre (w.sense a sd) = .ok (true, true) ∧ ∃ r, x.cond (w.sense a sd) = .ok r ∧ r ≠ (true, true)

/-- The steps before `i` do not end the search: the tube is contained in no guard, and after a step with a satisfied guard there is no step
without. -/
def Reached (w : World S K V) (b : Body S G K V D) (tr : Trace K) (i : Nat) : Prop :=
  (∀ j a p, j < i → ¬ ContainedAt w b tr j a p) ∧
  ∀ j k a p, j < k → k < i → HitAt w b tr j a p → ∃ a' p', HitAt w b tr k a' p'

/-- Every tube has a rectangle number `i`. -/
def HasStep (tr : Trace K) (i : Nat) : Prop := ∀ kv ∈ tr, i < kv.2.length

section
variable [Field K] [LinearOrder K]

/-- The answers about the guards are right for all states of the tubes, as well as the values that the resets use (C22, C23, C26). -/
structure Faithful (M : Meaning S G K V D) (w : World S K V) (b : Body S G K V D) (tr : Trace K) : Prop where
  /-- a guard that is discarded is false in all states -/
  never : ∀ a dl p sd0 i snap, Controlled b a dl → p ∈ dl.paths → Boxes b tr 0 sd0 → p.prep (w.sense a sd0) = .ok none →
    InTube b tr i snap → ¬ M.holds p a snap
  /-- a guard that is true in some state may be satisfied -/
  maybe : ∀ a p i r snap, Asked w b tr i a p r → InTube b tr i snap → M.holds p a snap → r.1 = true
  /-- the ranges of the variables contain their values -/
  range : ∀ a dl p sd0 i sd g C snap, Controlled b a dl → p ∈ dl.paths → Boxes b tr 0 sd0 → Boxes b tr i sd →
    p.prep (w.sense a sd0) = .ok (some g) → p.cont g (w.sense a sd) = .ok C → Within snap sd → InRange C (M.vars p a snap)
  /-- the discrete values are those of the first step -/
  disc : ∀ a dl p sd0 i snap, Controlled b a dl → p ∈ dl.paths → Boxes b tr 0 sd0 → InTube b tr i snap →
    p.disc (w.sense a sd0) = M.disc p a snap

/-- The reset expressions are such that their range can be computed (see C26), and modes are reset to constants, members of mode
definitions or results of the map. -/
def Resettable (w : World S K V) (b : Body S G K V D) (tr : Trace K) : Prop :=
  ∀ a dl p sd0 i sd g C, Controlled b a dl → p ∈ dl.paths → Boxes b tr 0 sd0 → Boxes b tr i sd →
    p.prep (w.sense a sd0) = .ok (some g) → p.cont g (w.sense a sd) = .ok C →
    (∀ e, p.val = .arith e → p.var ∈ dl.cont → Readable w.sh w.rd C e ∧ NoVarPow C e ∧ Between w.rd C e) ∧
    (p.var ∈ dl.disc → (∀ e, p.val ≠ .arith e) ∧ ∀ v, p.val ≠ .member false v)

/-- One outcome of the controller of agent `a` in a state: exactly the variables written by a satisfied guard change, each to a value given
by one satisfied path for that variable, all values read in the old state. -/
def Fires (M : Meaning S G K V D) (rd : Rst.Text → Option K) (dl : Logic S G K V D) (a : String) (snap : Snap K V)
    (state : List K) (mode : List V) (dest : List V) (post : List K) : Prop :=
  ∃ choice : String → Option (Path S G K V D),
    (∀ v p, choice v = some p → p ∈ dl.paths ∧ p.var = v ∧ M.holds p a snap) ∧
    (∀ p ∈ dl.paths, M.holds p a snap → (choice p.var).isSome) ∧
    (∃ v, (choice v).isSome) ∧
    mode.length = dest.length ∧ state.length = post.length ∧
    (∀ (i : Nat) (v : String) (y : V), dl.disc[i]? = some v → dest[i]? = some y → match choice v with
      | some p => NewMode (M.disc p a snap) p.val y
      | none => mode[i]? = some y) ∧
    (∀ (i : Nat) (v : String), dl.cont[i]? = some v → match choice v with
      | some p => ∃ e, p.val = .arith e ∧ ∃ x, post[i]? = some x ∧ value rd (M.vars p a snap) e = some x
      | none => post[i]? = state[i]?)

/-- Whenever a guard for a variable may be satisfied at step `i`, one for the same variable is satisfied in `snap`. -/
def NoExtraHit (M : Meaning S G K V D) (w : World S K V) (b : Body S G K V D) (tr : Trace K) (i : Nat) (a : String)
    (dl : Logic S G K V D) (snap : Snap K V) : Prop :=
  ∀ p ∈ dl.paths, HitAt w b tr i a p → ∃ p' ∈ dl.paths, p'.var = p.var ∧ M.holds p' a snap

end

/-- The map permits the mode change: either neither the agent mode nor the track changes, or the new track is the one the map
prescribes. -/
def MapPermits (w : World S K V) (dl : Logic S G K V D) (src dest : List V) : Prop :=
  ∃ sm st dm dt, Verif.Spec.ModeOf dl.discType src sm ∧ Verif.Spec.TrackOf dl.discType src st ∧
    Verif.Spec.ModeOf dl.discType dest dm ∧ Verif.Spec.TrackOf dl.discType dest dt ∧
    ((sm = dm ∧ st = dt) ∨ dt = w.mapH st sm dm)

/-- The agent `a` can switch in the state `snap`, to the mode `dest` and the state `post`. -/
def CanSwitch [Field K] [LinearOrder K] (M : Meaning S G K V D) (w : World S K V) (b : Body S G K V D) (snap : Snap K V) (a : String)
    (dl : Logic S G K V D) (dest : List V) (post : List K) : Prop :=
  ∃ state mode static, Controlled b a dl ∧ (a, state, mode, static) ∈ snap ∧ state.length = dl.cont.length ∧
    mode.length = dl.disc.length ∧ Fires M w.rd dl a snap state mode dest post ∧ MapPermits w dl mode dest

/-- The child covers the switch of agent `a` at step `i`: `a` has the mode `dest`, the others keep theirs; `post` is in one of its initial
rectangles; the other agents keep the rest of their tubes, from a step `j ≤ i` on. -/
def Covers [LE K] (b : Body S G K V D) (tr : Trace K) (i : Nat) (a : String) (dest : List V) (post : List K)
    (c : Engine.Child (Body S G K V D) (Trace K)) : Prop :=
  c.body.agents = b.agents ∧ c.body.static = b.static ∧
  (∀ o, Dict.get? c.body.mode o = if o = a then some dest else Dict.get? b.mode o) ∧
  (∃ rs, Dict.get? c.body.init a = some rs ∧ ∃ r ∈ rs, Inside post r) ∧
  Dict.get? c.trace a = none ∧
  ∃ j, j ≤ i ∧ ∀ o ∈ b.agents, o.1 ≠ a → ∃ segs, Dict.get? tr o.1 = some segs ∧ Dict.get? c.trace o.1 = some (segs.drop j)

/-- The tubes a node works with: inherited ones, and others for which `J` says what they are, given name, mode and initial rectangles. -/
def Tubes (b : Body S G K V D) (J : String → List V → List (Rect.Box K) → Tube K → Prop) (given full : Trace K) : Prop :=
  (∀ a segs, Dict.get? given a = some segs → Dict.get? full a = some segs) ∧
  ∀ a ∈ b.agents, Dict.get? given a.1 = none → ∃ m i t, Dict.get? b.mode a.1 = some m ∧ Dict.get? b.init a.1 = some i ∧
    J a.1 m i t ∧ Dict.get? full a.1 = some t

end Verif.Ver.Spec
