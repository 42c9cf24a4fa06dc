import Verif.Model.Contains

/-! What it means for one verification tree to contain another, without `contains`' own tables. -/

set_option autoImplicit false

namespace Verif.Spec
open Verif.ATree (CNode)

/-- In the tree `t`, agent `a` has a rectangle (`lo`, `hi`) at step `i`, counted in time steps `h` from the start of `t`: either
in the node's own tube (rows `2i` and `2i+1`) or in the tube of a descendant. -/
inductive RectAt (h : ℚ) (a : String) : RTree CNode → Nat → List ℚ → List ℚ → Prop
  | own {n : CNode} {ts : List (RTree CNode)} {rows : List (List ℚ)} {i : Nat} {lo hi : List ℚ} :
      Dict.get? n.trace a = some rows → rows[2 * i]? = some lo → rows[2 * i + 1]? = some hi → RectAt h a (.node n ts) i lo hi
  | child {n : CNode} {ts : List (RTree CNode)} {t : RTree CNode} {s i : Nat} {lo hi : List ℚ} :
      t ∈ ts → t.label.start = n.start + s * h → RectAt h a t i lo hi → RectAt h a (.node n ts) (s + i) lo hi

/-- Value `x` is possible for dimension `j` of agent `a` at step `i` of the tree. -/
def Covers (h : ℚ) (t : RTree CNode) (a : String) (i j : Nat) (x : ℚ) : Prop :=
  ∃ lo hi p q, RectAt h a t i lo hi ∧ lo[j]? = some p ∧ hi[j]? = some q ∧ p ≤ x ∧ x ≤ q

/-- A verification tree on the time grid of step `h` that was not cut short: every node has, for every agent of `m`, the same
number `L > 0` of rectangles of dimension `cont`, whose last one spans `[start + (L-1)h, start + Lh]`; children start on the
grid strictly before the end of their parent; every leaf ends at the horizon `T` and no other node ends after it. -/
inductive OnGrid (h T : ℚ) (m : List String) (cont : Nat) : RTree CNode → Prop
  | mk {n : CNode} {ts : List (RTree CNode)} (L : Nat) :
      0 < L →
      (∀ a ∈ m, ∃ rows, Dict.get? n.trace a = some rows ∧ rows.length = 2 * L ∧ (∀ r ∈ rows, r.length = cont) ∧
        (∃ r, rows[2 * L - 2]? = some r ∧ r[0]? = some (n.start + (L - 1 : ℕ) * h)) ∧
        (∃ r, rows[2 * L - 1]? = some r ∧ r[0]? = some (n.start + L * h))) →
      (∀ t ∈ ts, OnGrid h T m cont t) →
      (∀ t ∈ ts, ∃ s : Nat, s < L ∧ t.label.start = n.start + s * h) →
      (ts = [] → n.start + L * h = T) →
      n.start + L * h ≤ T →
      OnGrid h T m cont (.node n ts)

end Verif.Spec
