import Verif.Spec.Tree

/-! Specification vocabulary for analysis trees: subtrees in preorder, trees denoted by heap objects. -/

set_option autoImplicit false

namespace Verif.Spec
namespace RTree
variable {D : Type}

mutual
/-- all subtrees (= nodes), in preorder, one entry per node -/
def subs : RTree D → List (RTree D)
  | node d ts => node d ts :: subsL ts
def subsL : List (RTree D) → List (RTree D)
  | [] => []
  | t :: ts => subs t ++ subsL ts
end
end RTree

mutual
/-- The tree that starts at heap object `p`; a heap object is its contents and the references of its children. -/
inductive HeapTree {D : Type} (heap : List (D × List Nat)) : Nat → RTree D → Prop
  | mk {p d ps ts} : heap[p]? = some (d, ps) → HeapTrees heap ps ts → HeapTree heap p (.node d ts)
inductive HeapTrees {D : Type} (heap : List (D × List Nat)) : List Nat → List (RTree D) → Prop
  | nil : HeapTrees heap [] []
  | cons {p ps t ts} : HeapTree heap p t → HeapTrees heap ps ts → HeapTrees heap (p :: ps) (t :: ts)
end

end Verif.Spec
