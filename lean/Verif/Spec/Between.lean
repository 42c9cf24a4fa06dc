import Verif.Spec.Safe
import Mathlib.Algebra.Order.Floor.Ring
import Mathlib.Data.Rat.Cast.Order

/-!
Executions of a scenario in continuous time, and what it means that a tree of reachable sets covers one at all times (C82, C83). Time is measured in
any ordered field `R`, for example the real numbers. `Spec/Execution.lean` has the executions in discrete time.
-/

set_option autoImplicit false

namespace Verif.Ver.Spec

open Verif.Ver Verif.Rect.Spec Verif.Rst.Spec Verif.Spec

variable {S G K V D R : Type}

/-- A phase: the modes of the agents, and their states as functions of the time since the beginning of the phase. -/
structure CPhase (R K V : Type) where
  mode : String → List V
  path : String → R → List K

/-- The state of all agents at time `t` of the phase. -/
def CPhase.snap (φ : CPhase R K V) (b : Body S G K V D) (t : R) : Snap K V :=
  b.agents.map (fun a => (a.1, φ.path a.1 t, φ.mode a.1, (Dict.get? b.static a.1).getD []))

section
variable [Field R] [LinearOrder R]

/-- The controllers look at the state at the times `look`. The phase, which begins at time `g`, has no guard that is true at such a time before it ends, at
time `τ` of the phase: transitions are urgent. -/
def CQuiet (M : Meaning S G K V D) (b : Body S G K V D) (look : R → Prop) (g : R) (φ : CPhase R K V) (τ : R) : Prop :=
  ∀ t a dl p, 0 ≤ t → t < τ → look (g + t) → Controlled b a dl → p ∈ dl.paths → ¬ M.holds p a (φ.snap b t)

section
variable [Field K] [LinearOrder K]

/-- At time `τ` of `φ` one agent takes a transition, and the phase `φ'` begins. `flow a m ρ`: in mode `m`, the agent `a` can have the state `ρ t` at
time `t`, for all `t`. -/
def CSwitches (M : Meaning S G K V D) (w : World S K V) (b : Body S G K V D) (flow : String → List V → (R → List K) → Prop)
    (φ : CPhase R K V) (τ : R) (φ' : CPhase R K V) : Prop :=
  ∃ a dl, CanSwitch M w b (φ.snap b τ) a dl (φ'.mode a) (φ'.path a 0) ∧ flow a (φ'.mode a) (φ'.path a) ∧
    ∀ o, o ≠ a → φ'.mode o = φ.mode o ∧ ∀ t, 0 ≤ t → φ'.path o t = φ.path o (τ + t)

/-- Phases with the time that each lasts, the first of which begins at a given time. -/
inductive CExecution (M : Meaning S G K V D) (w : World S K V) (b : Body S G K V D) (flow : String → List V → (R → List K) → Prop) (look : R → Prop) :
    R → List (CPhase R K V × R) → Prop
  | last {g φ τ} : 0 ≤ τ → CQuiet M b look g φ τ → CExecution M w b flow look g [(φ, τ)]
  | switch {g φ τ φ' τ' rest} : 0 ≤ τ → CQuiet M b look g φ τ → look (g + τ) → CSwitches M w b flow φ τ φ' →
      CExecution M w b flow look (g + τ) ((φ', τ') :: rest) → CExecution M w b flow look g ((φ, τ) :: (φ', τ') :: rest)

end

/-- The controllers look at the state at the multiples of the time step only. -/
def AtSteps (dt : ℚ) (t : R) : Prop := ∃ k : Nat, t = (k : R) * (dt : R)

/-- The controllers look at the state all the time. -/
def Always (_ : R) : Prop := True

/-- The phase begins in the initial set of the scenario, with its modes. -/
def CStarts [LE K] (b : Body S G K V D) (flow : String → List V → (R → List K) → Prop) (φ : CPhase R K V) : Prop :=
  ∀ a ∈ b.agents, Dict.get? b.mode a.1 = some (φ.mode a.1) ∧ (Dict.get? b.static a.1).isSome ∧ flow a.1 (φ.mode a.1) (φ.path a.1) ∧
    ∃ r, Dict.get? b.init a.1 = some [r] ∧ Inside (φ.path a.1 0) r

/-- The nodes follow the execution, whose first phase begins at time `g`: the modes agree, and at every time before `N * dt` the tubes have a rectangle
that contains the state. If `late` and `lag` are 0, this is a rectangle for that time. In general, the execution may be at most `lag` behind the rectangle,
and falls behind by at most `late` with every switch. -/
inductive CTracks {A : Type} [LE K] (agents : List String) (dt : ℚ) (N : Nat) (late : R) :
    R → R → List (CPhase R K V × R) → List (Label (Body S G K V D) (Trace K) A) → Prop
  | nil {g lag} : CTracks agents dt N late g lag [] []
  | cons {g lag φ τ rest us} {u : Label (Body S G K V D) (Trace K) A} :
      (∀ a ∈ agents, Dict.get? u.body.mode a = some (φ.mode a)) →
      (∀ t, 0 ≤ t → t ≤ τ → g + t < (N : R) * (dt : R) → ∀ a ∈ agents, ∃ segs, Dict.get? u.trace a = some segs ∧
        ∃ s ∈ segs, (s.t0 : R) ≤ g + t ∧ g + t ≤ (s.t1 : R) + lag ∧ Inside (φ.path a t) s.box) →
      CTracks agents dt N late (g + τ) (lag + late) rest us → CTracks agents dt N late g lag ((φ, τ) :: rest) (u :: us)

/-- The computation of reachable sets of single agents is right: for `N - k` steps there are `N - k` rectangles, for the right intervals of time, that
contain the states of all trajectories from the initial rectangle at all times of the interval. -/
structure CSoundTubes [LE K] (w : World S K V) (flow : String → List V → (R → List K) → Prop) (dt : ℚ) (N : Nat) (d : String → Nat) : Prop where
  length : ∀ (a : String) (m : List V) (c : Rect.Box K) (k : Nat), c.1.length = d a → c.2.length = d a →
    (w.bloat a m c (((N - k : Nat) : ℚ) * dt)).length = N - k
  times : ∀ (a : String) (m : List V) (c : Rect.Box K) (k j : Nat) (s : Seg K), c.1.length = d a → c.2.length = d a →
    (w.bloat a m c (((N - k : Nat) : ℚ) * dt))[j]? = some s → s.t0 = (j : ℚ) * dt ∧ s.t1 = ((j + 1 : Nat) : ℚ) * dt
  dims : ∀ (a : String) (m : List V) (c : Rect.Box K) (k : Nat), c.1.length = d a → c.2.length = d a →
    ∀ s ∈ w.bloat a m c (((N - k : Nat) : ℚ) * dt), s.box.1.length = d a ∧ s.box.2.length = d a
  inside : ∀ (a : String) (m : List V) (c : Rect.Box K) (k j : Nat) (s : Seg K) (ρ : R → List K), flow a m ρ → Inside (ρ 0) c →
    (w.bloat a m c (((N - k : Nat) : ℚ) * dt))[j]? = some s →
    ∀ t : R, (j : R) * (dt : R) ≤ t → t ≤ ((j + 1 : Nat) : R) * (dt : R) → Inside (ρ t) s.box

/-- At time `t` after its beginning, the execution is in the state `s`. (When an agent switches, the states before and after both occur.) -/
inductive COccurs (b : Body S G K V D) : List (CPhase R K V × R) → R → Snap K V → Prop
  | here {φ τ rest t} : 0 ≤ t → t ≤ τ → COccurs b ((φ, τ) :: rest) t (φ.snap b t)
  | later {φ τ rest t s} : COccurs b rest t s → COccurs b ((φ, τ) :: rest) (τ + t) s

end

end Verif.Ver.Spec
