import Mathlib.Data.Rat.Floor
import Mathlib.Tactic.Linarith

/-!
Shared helpers that model Python built-ins used throughout verse.
-/

set_option autoImplicit false

namespace Verif

/-- A Python `dict`: association list in insertion order (language semantics since 3.7). -/
abbrev Dict (K V : Type) := List (K × V)

namespace Dict
variable {K V : Type} [DecidableEq K]

/-- `d[k]` / `d.get(k)`; `none` models `KeyError`. -/
def get? (d : Dict K V) (k : K) : Option V := (List.find? (fun p => decide (p.1 = k)) d).map Prod.snd

/-- `d[k] = v`: overwrite in place or append at the end. -/
def set : Dict K V → K → V → Dict K V
  | [], k, v => [(k, v)]
  | (k', v') :: d, k, v => if k' = k then (k, v) :: d else (k', v') :: set d k v

/-- `k in d` -/
def mem (d : Dict K V) (k : K) : Bool := d.any (fun p => decide (p.1 = k))

/-- `list(d.keys())` -/
def keys (d : Dict K V) : List K := d.map Prod.fst

/-- `list(d.values())` -/
def vals (d : Dict K V) : List V := d.map Prod.snd

end Dict

/-- `list(itertools.product(*ls))`, rightmost factor varying fastest. -/
def product {α : Type} : List (List α) → List (List α)
  | [] => [[]]
  | l :: ls => l.flatMap (fun a => (product ls).map (fun t => a :: t))

/-- Python index with negative wrap-around: `l[i]`; `none` models `IndexError`. -/
def pyIdx {α : Type} (l : List α) (i : Int) : Option α :=
  if 0 ≤ i then l[i.toNat]? else if -(l.length : Int) ≤ i then l[(l.length + i).toNat]? else none

/-- Insert after all elements with a smaller or equal key (one step of a stable sort). -/
def insertByKey {α : Type} (key : α → Nat) (a : α) : List α → List α
  | [] => [a]
  | b :: l => if key a < key b then a :: b :: l else b :: insertByKey key a l

/-- `list.sort(key=...)`: stable sort (any stable sort gives the same list). -/
def stableSort {α : Type} (key : α → Nat) (l : List α) : List α :=
  l.foldl (fun acc a => insertByKey key a acc) []

/-- `dedup(l, f)` of verse/utils/utils.py:428-437: `o` collects `(i, f(i))` for items whose key is not
yet in `o`. -/
def dedupBy {α κ : Type} [DecidableEq κ] (f : α → κ) (l : List α) : List α :=
  ((l.map (fun i => (i, f i))).foldl
    (fun (o : List (α × κ)) ik => if o.any (fun p => decide (ik.2 = p.2)) then o else o ++ [ik]) []).map Prod.fst

end Verif
