import Verif.Spec.Verifier
import Verif.Spec.Tree

/-!
Executions of a scenario in discrete time, and what it means that a tree of reachable sets covers one (C55). An execution is a sequence of
phases; in each phase the modes of all agents are constant. A phase ends when an agent takes a transition.
-/

set_option autoImplicit false

namespace Verif.Ver.Spec

open Verif.Ver Verif.Rect.Spec Verif.Rst.Spec Verif.Spec

variable {S G K V D : Type}

/-- A phase: the modes of the agents, and their states after 0, 1, 2, … steps. -/
structure Phase (K V : Type) where
  mode : String → List V
  path : String → Nat → List K

/-- The state of all agents after `k` steps of the phase. -/
def Phase.snap (φ : Phase K V) (b : Body S G K V D) (k : Nat) : Snap K V :=
  b.agents.map (fun a => (a.1, φ.path a.1 k, φ.mode a.1, (Dict.get? b.static a.1).getD []))

/-- No guard is true during the first `n` steps: transitions are urgent. -/
def Quiet (M : Meaning S G K V D) (b : Body S G K V D) (φ : Phase K V) (n : Nat) : Prop :=
  ∀ k a dl p, k < n → Controlled b a dl → p ∈ dl.paths → ¬ M.holds p a (φ.snap b k)

section
variable [Field K] [LinearOrder K]

/-- After `n` steps of `φ` one agent takes a transition, and the phase `φ'` begins. `flow a m ρ`: in mode `m`, the agent `a` can have the
states `ρ 0`, `ρ 1`, …. -/
def Switches (M : Meaning S G K V D) (w : World S K V) (b : Body S G K V D) (flow : String → List V → (Nat → List K) → Prop)
    (φ : Phase K V) (n : Nat) (φ' : Phase K V) : Prop :=
  ∃ a dl, CanSwitch M w b (φ.snap b n) a dl (φ'.mode a) (φ'.path a 0) ∧ flow a (φ'.mode a) (φ'.path a) ∧
    ∀ o, o ≠ a → φ'.mode o = φ.mode o ∧ ∀ k, φ'.path o k = φ.path o (n + k)

/-- Phases with the number of steps that each lasts. -/
inductive Execution (M : Meaning S G K V D) (w : World S K V) (b : Body S G K V D) (flow : String → List V → (Nat → List K) → Prop) :
    List (Phase K V × Nat) → Prop
  | last {φ n} : Quiet M b φ n → Execution M w b flow [(φ, n)]
  | switch {φ n φ' n' rest} : Quiet M b φ n → Switches M w b flow φ n φ' → Execution M w b flow ((φ', n') :: rest) →
      Execution M w b flow ((φ, n) :: (φ', n') :: rest)

end

/-- The phase begins in the initial set of the scenario, with its modes. -/
def Starts [LE K] (b : Body S G K V D) (flow : String → List V → (Nat → List K) → Prop) (φ : Phase K V) : Prop :=
  ∀ a ∈ b.agents, Dict.get? b.mode a.1 = some (φ.mode a.1) ∧ (Dict.get? b.static a.1).isSome ∧ flow a.1 (φ.mode a.1) (φ.path a.1) ∧
    ∃ r, Dict.get? b.init a.1 = some [r] ∧ Inside (φ.path a.1 0) r

/-- `us` are the labels of a path from the root of the tree downwards. -/
inductive PathIn {D : Type} : RTree D → List D → Prop
  | root {t} : PathIn t [t.label]
  | down {t u us} : u ∈ t.kids → PathIn u us → PathIn t (t.label :: us)

/-- The nodes follow the execution, whose first phase begins after `g` steps of length `dt`: the modes agree, and the tubes contain the states
at the right times, for all steps before step `N`. -/
inductive Tracks {A : Type} [LE K] (agents : List String) (dt : ℚ) (N : Nat) :
    Nat → List (Phase K V × Nat) → List (Label (Body S G K V D) (Trace K) A) → Prop
  | nil {g} : Tracks agents dt N g [] []
  | cons {g φ n rest us} {u : Label (Body S G K V D) (Trace K) A} :
      (∀ a ∈ agents, Dict.get? u.body.mode a = some (φ.mode a)) →
      (∀ k, k ≤ n → g + k < N → ∀ a ∈ agents, ∃ segs, Dict.get? u.trace a = some segs ∧
        ∃ s ∈ segs, s.t0 = ((g + k : Nat) : ℚ) * dt ∧ Inside (φ.path a k) s.box) →
      Tracks agents dt N (g + n) rest us → Tracks agents dt N g ((φ, n) :: rest) (u :: us)

/-- The computation of reachable sets of single agents is right: for `N - k` steps there are `N - k` rectangles, with the right times, that
contain the states of all trajectories from the initial rectangle. -/
structure SoundTubes [LE K] (w : World S K V) (flow : String → List V → (Nat → List K) → Prop) (dt : ℚ) (N : Nat) (d : String → Nat) :
    Prop where
  length : ∀ (a : String) (m : List V) (c : Rect.Box K) (k : Nat), c.1.length = d a → c.2.length = d a →
    (w.bloat a m c (((N - k : Nat) : ℚ) * dt)).length = N - k
  times : ∀ (a : String) (m : List V) (c : Rect.Box K) (k j : Nat) (s : Seg K), c.1.length = d a → c.2.length = d a →
    (w.bloat a m c (((N - k : Nat) : ℚ) * dt))[j]? = some s → s.t0 = (j : ℚ) * dt
  dims : ∀ (a : String) (m : List V) (c : Rect.Box K) (k : Nat), c.1.length = d a → c.2.length = d a →
    ∀ s ∈ w.bloat a m c (((N - k : Nat) : ℚ) * dt), s.box.1.length = d a ∧ s.box.2.length = d a
  inside : ∀ (a : String) (m : List V) (c : Rect.Box K) (k j : Nat) (s : Seg K) (ρ : Nat → List K), flow a m ρ → Inside (ρ 0) c →
    (w.bloat a m c (((N - k : Nat) : ℚ) * dt))[j]? = some s → Inside (ρ j) s.box

/-- `dest` is a mode to which the choice of paths leads. -/
def Possible (w : World S K V) (b : Body S G K V D) (tr : Trace K) (a : String) (dl : Logic S G K V D)
    (sel : String → Option (Path S G K V D)) (src dest : List V) : Prop :=
  dest.length = src.length ∧ ∀ (k : Nat) (v : String) (y : V), dl.disc[k]? = some v → dest[k]? = some y → match sel v with
    | some p => ∃ sd0, Boxes b tr 0 sd0 ∧ NewMode (p.disc (w.sense a sd0)) p.val y
    | none => src[k]? = some y

section
variable [Field K] [LinearOrder K] [DecidableEq V]

/-- What is required of the tubes `tr` of the agents of a node, other than that answers about guards are right and modes complete. -/
structure NodeRest (M : Meaning S G K V D) (w : World S K V) (n : Engine.Work (Body S G K V D) (Trace K)) (tr : Trace K) : Prop where
  /-- resets can be computed -/
  resettable : Resettable w n.body tr
  /-- no gap: once a guard may be satisfied, some guard may be satisfied at every later step, until the tube is contained in a guard -/
  noGap : ∀ j k a p, j < k → HitAt w n.body tr j a p → (∀ i a' p', i < k → ¬ ContainedAt w n.body tr i a' p') → HasStep tr k →
    ∃ a' p', HitAt w n.body tr k a' p'
  /-- a tube is contained in a guard only after all executions have entered the node -/
  late : ∀ j a p, ContainedAt w n.body tr j a p → ∀ o ∈ n.body.agents, Dict.get? n.trace o.1 = none →
    ∀ rs, Dict.get? n.body.init o.1 = some rs → rs.length ≤ j + 1
  /-- every transition that is found has one rectangle for every step, from its first step on -/
  aligned : ∀ ts, getTransitions w n.body tr = .ok (.trans ts) → ∀ t ∈ ts, ∀ (k i : Nat), t.idxs[k]? = some i →
    ∃ i0, t.idxs.head? = some i0 ∧ i = i0 + k
  /-- the map permits every mode change that a controller makes -/
  permits : ∀ i a dl sel src dest, Controlled n.body a dl → Selects w n.body tr i a dl sel → Dict.get? n.body.mode a = some src →
    Possible w n.body tr a dl sel src dest → MapPermits w dl src dest
  /-- no guard for another variable may be satisfied elsewhere in the tube (see C27) -/
  alone : ∀ i snap a dl dest post, InTube n.body tr i snap → CanSwitch M w n.body snap a dl dest post → NoExtraHit M w n.body tr i a dl snap

/-- What is required of a node, whose agents have the tubes `tr`. -/
structure NodeOK (M : Meaning S G K V D) (w : World S K V) (n : Engine.Work (Body S G K V D) (Trace K)) (tr : Trace K) : Prop extends NodeRest M w n tr where
  /-- modes have a value for every discrete variable -/
  modes : ∀ a dl src, Controlled n.body a dl → Dict.get? n.body.mode a = some src → src.length = dl.disc.length
  /-- the answers about guards and the values that resets use are right -/
  faithful : Faithful M w n.body tr
  contained : ∀ j a p, ContainedAt w n.body tr j a p → ∀ s, InTube n.body tr j s → M.holds p a s

/-- The nodes that are handed to workers, for a scenario `b`. -/
inductive Visited (w : World S K V) (cfg : Engine.Cfg (Body S G K V D) (Trace K) Hits) (b : Body S G K V D) :
    Engine.Work (Body S G K V D) (Trace K) → Prop
  | root : Visited w cfg b ⟨0, cfg.roundN 0, b, []⟩
  | child {n c} : Visited w cfg b n → c ∈ (verStep w n (cfg.round10 (cfg.horizon - n.start))).next →
      Visited w cfg b ⟨n.height + 1, cfg.roundN c.start, c.body, c.trace⟩

end

end Verif.Ver.Spec
