import Verif.Model.Bench
import Verif.Spec.ATree

/-!
What the command line of an experiment asks for, what a run of it is, and what is reported about a run.
-/

set_option autoImplicit false

namespace Verif.Bench.Spec
open Verif.Spec

/-- The letters of the first argument of the command line; there may be none. -/
inductive Letters : List Text → Text → Prop
  | given (prog arg : Text) (rest : List Text) : Letters (prog :: arg :: rest) arg
  | program (prog : Text) : Letters [prog] []
  | nothing : Letters [] []

/-- One analysis as the experiment asks for: with the letter `v` verification, otherwise simulation, of the scenario `s` with the times `a` and the keyword
arguments `kw`. The result: a tree, and the scenario afterwards. -/
def Analysed {S W : Type} (w : World S W) (sim : Bool) (s : S) (a : List ℚ) (kw : Dict String W) (t : RTree ATree.CNode) (s' : S) : Prop :=
  (sim = true ∧ w.simulate s a kw = .ok (t, s')) ∨ (sim = false ∧ w.verify s a kw = .ok (t, s'))

/-- What is reported about the tree `t` of an analysis after which the scenario is `s`. -/
structure About {S W : Type} (w : World S W) (sim incremental : Bool) (s : S) (t : RTree ATree.CNode) (p : Printed) : Prop where
  agents : p.agents = w.agents s
  nodes : p.nodes = (RTree.subs t).length
  leaves : p.leaves = ((RTree.subs t).filter fun n => decide (n.kids = [])).length
  /-- hits and misses that the scenario has counted; without incremental analysis none are shown -/
  hits : p.cache.map Prod.fst = if incremental then some (if sim then w.simHits s else
    ((w.tubeHits s).1 + (w.transHits s).1, (w.tubeHits s).2 + (w.transHits s).2)) else none
  /-- the rate is the share of hits in percent -/
  rate : ∀ h m r, p.cache = some ((h, m), r) → r * ((h : ℚ) + m) = 100 * h

end Verif.Bench.Spec
