import Verif.Spec.Execution

/-!
Safe executions (C80): what it means that an execution satisfies the asserts of all controllers, and that the answers about asserts are right.
-/

set_option autoImplicit false

namespace Verif.Ver.Spec

open Verif.Ver

variable {S G K V D : Type}

/-- `k` steps after its beginning, the execution is in the state `s`. (When an agent switches, the states before and after both occur.) -/
inductive Occurs (b : Body S G K V D) : List (Phase K V × Nat) → Nat → Snap K V → Prop
  | here {φ n rest k} : k ≤ n → Occurs b ((φ, n) :: rest) k (φ.snap b k)
  | later {φ n rest k s} : Occurs b rest k s → Occurs b ((φ, n) :: rest) (n + k) s

/-- In this state, every assert of every controller is satisfied whose precondition is. -/
def SafeState (M : Meaning S G K V D) (b : Body S G K V D) (s : Snap K V) : Prop :=
  ∀ a dl x, Controlled b a dl → x ∈ dl.asserts → M.pre x a s → M.cond x a s

/-- The answers about the asserts are right: a condition that is certainly satisfied holds in all states of the tubes, and the precondition does not
distinguish the states of one step (it depends on modes only, or there is none). -/
structure AssertsFaithful [LE K] (M : Meaning S G K V D) (w : World S K V) (b : Body S G K V D) (tr : Trace K) : Prop where
  cond : ∀ i a dl x sd, Controlled b a dl → x ∈ dl.asserts → Boxes b tr i sd → x.cond (w.sense a sd) = .ok (true, true) →
    ∀ s, Within s sd → M.cond x a s
  pre  : ∀ i a dl x sd r, Controlled b a dl → x ∈ dl.asserts → Boxes b tr i sd → x.pre (w.sense a sd) = .ok r →
    (∃ s, Within s sd ∧ M.pre x a s) → r = (true, true)

end Verif.Ver.Spec
