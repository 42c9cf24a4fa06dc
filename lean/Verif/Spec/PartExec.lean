import Verif.Spec.Partitioned
import Verif.Spec.Safe

/-!
What is required of the nodes of `verify_partitioned`, so that the tree follows the executions (C103).
-/

set_option autoImplicit false

namespace Verif.Ver.Spec

open Verif.Ver Verif.Rect.Spec Verif.Rst.Spec Verif.Spec

variable {S G K V D : Type}

/-- No guard of any agent may be satisfied before step `i`, according to the checks. -/
def FirstHit (w : World S K V) (b : Body S G K V D) (tr : Trace K) (i : Nat) : Prop :=
  ∀ j a p, j < i → ¬ HitAt w b tr j a p

section
variable [Field K] [LinearOrder K] [DecidableEq V]

/-- What is required of a node of the partitioned analysis, whose agents have the tubes `tr`. -/
structure PartOK (M : Meaning S G K V D) (w : PWorld S K V) (n : Engine.Work (Body S G K V D) (Trace K)) (tr : Trace K) : Prop where
  /-- the answers about guards and the values that resets use are right -/
  faithful : Faithful M w.toWorld n.body tr
  contained : ∀ j a p, ContainedAt w.toWorld n.body tr j a p → ∀ s, InTube n.body tr j s → M.holds p a s
  parts : PartFaithful M w n.body tr
  /-- resets can be computed -/
  resettable : Resettable w.toWorld n.body tr
  /-- sharp: at the first step at which a guard may be satisfied, every state of the tubes satisfies a guard -/
  sharp : ∀ i a p, HitAt w.toWorld n.body tr i a p → FirstHit w.toWorld n.body tr i → ∀ s, InTube n.body tr i s →
    ∃ a' dl p', Controlled n.body a' dl ∧ p' ∈ dl.paths ∧ M.holds p' a' s
  /-- no guard for another variable may be satisfied elsewhere in the tube at this step -/
  alone : ∀ i snap a dl dest post, FirstHit w.toWorld n.body tr i → InTube n.body tr i snap → CanSwitch M w.toWorld n.body snap a dl dest post →
    NoExtraHit M w.toWorld n.body tr i a dl snap
  /-- at most one path for each variable may be satisfied at this step -/
  onePath : ∀ i a dl, FirstHit w.toWorld n.body tr i → Controlled n.body a dl → OnePath w.toWorld n.body tr i a dl
  /-- the dimensions to cut exist -/
  dims : ∀ a dl, Controlled n.body a dl → DimsOk w.dims dl.cont.length

/-- The nodes that are handed to the step, for a scenario `b`. -/
inductive PVisited (w : PWorld S K V) (cfg : Engine.Cfg (Body S G K V D) (Trace K) Hits) (b : Body S G K V D) :
    Engine.Work (Body S G K V D) (Trace K) → Prop
  | root : PVisited w cfg b ⟨0, cfg.roundN 0, b, []⟩
  | child {n c} : PVisited w cfg b n → c ∈ (partStep w n (cfg.round10 (cfg.horizon - n.start))).next →
      PVisited w cfg b ⟨n.height + 1, cfg.roundN c.start, c.body, c.trace⟩

end

end Verif.Ver.Spec
