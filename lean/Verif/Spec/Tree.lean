import Verif.Model.Engine

/-!
Specification of an exploration: the tree obtained by expanding the root recursively, with no work list, ids or tasks.
-/

set_option autoImplicit false

namespace Verif.Spec

/-- Rose tree. -/
inductive RTree (D : Type) where
  | node : D → List (RTree D) → RTree D

namespace RTree
variable {D E : Type}

def label : RTree D → D
  | node d _ => d

def kids : RTree D → List (RTree D)
  | node _ ts => ts

mutual
/-- labels in preorder -/
def flatten : RTree D → List D
  | node d ts => d :: flattenL ts
/-- labels of a forest in preorder -/
def flattenL : List (RTree D) → List D
  | [] => []
  | t :: ts => flatten t ++ flattenL ts
end

mutual
/-- apply `f` to all labels -/
def map (f : D → E) : RTree D → RTree E
  | node d ts => node (f d) (mapL f ts)
def mapL (f : D → E) : List (RTree D) → List (RTree E)
  | [] => []
  | t :: ts => map f t :: mapL f ts
end

/-- `Below t u k`: `u` is a subtree of `t`, `k` edges below its root. -/
inductive Below : RTree D → RTree D → Nat → Prop
  | refl (t) : Below t t 0
  | step {d ts t u k} : t ∈ ts → Below t u k → Below (node d ts) u (k + 1)

end RTree

/-- What the user sees of a node, apart from its id. -/
structure Label (X T A : Type) where
  height : Nat
  start  : ℚ
  body   : X
  trace  : T
  hits   : A

/-- How the exploration is configured, without any scheduling parameter:
`explored h t` – a node at depth `h` that starts at `t` is to be expanded; `expand` – the outcome of doing so. -/
structure Problem (X T A : Type) where
  explored : Nat → ℚ → Prop
  expand   : Engine.Work X T → Engine.Result X T A
  round    : ℚ → ℚ
  noHits   : A

mutual
/-- `Explores P h start body trace t`: `t` is the tree of everything reachable from a node with this content. -/
inductive Explores {X T A : Type} (P : Problem X T A) : Nat → ℚ → X → T → RTree (Label X T A) → Prop
  | leaf {h st b tr} : ¬ P.explored h st →
      Explores P h st b tr (.node ⟨h, st, b, tr, P.noHits⟩ [])
  | node {h st b tr ts} : P.explored h st →
      ExploresAll P (h + 1) (P.expand ⟨h, st, b, tr⟩).next ts →
      Explores P h st b tr
        (.node ⟨h, st, b, (P.expand ⟨h, st, b, tr⟩).trace, (P.expand ⟨h, st, b, tr⟩).hits⟩ ts)
/-- the trees of a list of children, in order -/
inductive ExploresAll {X T A : Type} (P : Problem X T A) :
    Nat → List (Engine.Child X T) → List (RTree (Label X T A)) → Prop
  | nil {h} : ExploresAll P h [] []
  | cons {h c cs t ts} : Explores P h (P.round c.start) c.body c.trace t → ExploresAll P h cs ts →
      ExploresAll P h (c :: cs) (t :: ts)
end

/-- How the user configures an exploration (`simulate`/`verify` arguments), in the terms of `Problem`: a node is to be
expanded iff its depth is below `max_height - 1` and time remains. `dropHits` says whether assertion hits are lost. -/
def problem {X T A : Type} (cfg : Engine.Cfg X T A) (dropHits : Bool) : Problem X T A where
  explored h st := (∀ m, cfg.maxHeight = some m → h + 1 < m) ∧ 0 < cfg.round10 (cfg.horizon - st)
  expand w :=
    let r := cfg.step w (cfg.round10 (cfg.horizon - w.start))
    { r with hits := if dropHits then cfg.noHits else r.hits }
  round := cfg.roundN
  noHits := cfg.noHits

mutual
/-- The tree that starts at heap object `p` by following `child` references: what `AnalysisTree(root)` denotes. -/
inductive Denotes {X T A : Type} (heap : List (Engine.Rec X T A)) : Nat → RTree (Engine.Rec X T A) → Prop
  | mk {p r ts} : heap[p]? = some r → DenotesAll heap r.child ts → Denotes heap p (.node r ts)
inductive DenotesAll {X T A : Type} (heap : List (Engine.Rec X T A)) :
    List Nat → List (RTree (Engine.Rec X T A)) → Prop
  | nil : DenotesAll heap [] []
  | cons {p ps t ts} : Denotes heap p t → DenotesAll heap ps ts → DenotesAll heap (p :: ps) (t :: ts)
end

/-- Forget the id and the heap references. -/
def Label.ofRec {X T A : Type} (r : Engine.Rec X T A) : Label X T A := ⟨r.height, r.start, r.body, r.trace, r.hits⟩

/-- `t` is the tree (ids and references forgotten) that a finished run of the loop returns for the given root, under some
schedule. -/
def Returned {X T A : Type} (cfg : Engine.Cfg X T A) (body : X) (trace : T) (t : RTree (Label X T A)) : Prop :=
  0 < cfg.ahead ∧ ∃ (picks : List Nat) (s : Engine.St X T A) (g : RTree (Engine.Rec X T A)),
    Engine.run cfg picks (Engine.St.init cfg body trace) = .ok (s, true) ∧ Denotes s.nodes 0 g ∧ t = g.map Label.ofRec

end Verif.Spec
