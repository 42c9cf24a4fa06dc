import Verif.Spec.Execution
import Verif.Spec.Assembled

/-!
A class of scenarios for which the requirements of `NodeRest` (C55, C80) follow from conditions that can be read off the controllers and from how
tubes cross guards: controllers that switch between modes and change nothing else.
-/

set_option autoImplicit false

namespace Verif.Ver.Spec

open Verif.Ver Verif.Rect.Spec Verif.Rst.Spec Verif.Spec

variable {S G K V D : Type}

/-- The path sets its variable to the value `y`. -/
def Sets (p : Path S G K V D) (y : V) : Prop := p.val = .const y ∨ p.val = .member true y

/-- The controller has one mode variable, which is no track; its paths set this variable to fixed values. -/
structure OneMode (dl : Logic S G K V D) : Prop where
  disc  : ∃ v, dl.disc = [v]
  track : "TrackMode" ∉ dl.discType
  paths : ∀ p ∈ dl.paths, p.var ∈ dl.disc ∧ ∃ y, Sets p y

/-- How the tubes `tr` of a node meet the guards. -/
structure Crossed (w : World S K V) (n : Engine.Work (Body S G K V D) (Trace K)) (tr : Trace K) : Prop where
  /-- a tube that has begun to meet a guard goes on meeting it until some tube is contained in a guard -/
  onward : ∀ j k a p, j < k → HitAt w n.body tr j a p → (∀ i a' p', i < k → ¬ ContainedAt w n.body tr i a' p') → HasStep tr k →
    HitAt w n.body tr k a p
  /-- no two paths that a tube may take at the same step lead to the same mode -/
  apart : ∀ i a dl, Controlled n.body a dl →
    dl.paths.Pairwise (fun p q => HitAt w n.body tr i a p → HitAt w n.body tr i a q → ∀ y, Sets p y → ¬ Sets q y)
  /-- a tube is contained in a guard only after all executions have entered the node -/
  late : ∀ j a p, ContainedAt w n.body tr j a p → ∀ o ∈ n.body.agents, Dict.get? n.trace o.1 = none →
    ∀ rs, Dict.get? n.body.init o.1 = some rs → rs.length ≤ j + 1

end Verif.Ver.Spec

namespace Verif.Asm.Spec

open Verif.Grd Verif.Asm

variable {K : Type}

/-- Controllers of a scenario: one mode variable, which is no track; rules set it to fixed values; no formula queries the map. -/
structure ModesOnly (sc : Scenario K) : Prop where
  disc  : ∀ a c, (a, c) ∈ sc.agents → c.args ≠ [] → ∃ v, c.disc = [v]
  track : ∀ a c, (a, c) ∈ sc.agents → c.args ≠ [] → "TrackMode" ∉ c.discType
  rules : ∀ a c, (a, c) ∈ sc.agents → c.args ≠ [] → ∀ r ∈ c.rules, r.var ∈ c.disc ∧ ∃ y, r.val = .const y ∨ r.val = .member true y
  noMap : ∀ a c, (a, c) ∈ sc.agents → ∀ f ∈ formulas c, mapFreeF f = true

end Verif.Asm.Spec
