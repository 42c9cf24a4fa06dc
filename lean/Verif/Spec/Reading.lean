import Verif.Model.Reading
import Verif.Spec.Python
import Verif.Spec.Guard

/-!
How a state of the guard model describes the Python objects that a decision logic is called with; and when an expression can be evaluated in
Python without a type error.
-/

set_option autoImplicit false

namespace Verif.Rd.Spec
open Verif.Py Verif.Grd Verif.Grd.Spec

variable {V K : Type}

/-- The signs of the comparison operators. -/
def cmpText : CmpOp → String
  | .ge => ">="
  | .gt => ">"
  | .lt => "<"
  | .le => "<="
  | .eq => "=="
  | .ne => "!="

/-- The signs of the arithmetic operators. -/
def binText : BinOp → String
  | .add => "+"
  | .sub => "-"
  | .mul => "*"
  | .div => "/"

/-- The names of the map queries. -/
def queryText : Query → String
  | .lateral => "get_lateral_distance"
  | .longitudinal => "get_longitudinal_position"

/-- A truth value compared with a number (in Python `True == 1`). -/
def Mixed : Val K → Val K → Prop
  | .bool _, .num _ => True
  | .num _, .bool _ => True
  | _, _ => False

/-- The values can be compared: numbers with numbers, strings with strings; anything for equality, except truth values with numbers. -/
def Comparable : CmpOp → Val K → Val K → Prop
  | _, .num _, .num _ => True
  | _, .str _, .str _ => True
  | .eq, a, b => ¬ Mixed a b
  | .ne, a, b => ¬ Mixed a b
  | _, _, _ => False

/-- Python objects for numbers, strings and truth values: `put` turns a value into an object, and the operations of Python on these objects are
the ones on the values. -/
structure Agrees [Field K] [LinearOrder K] (P : PyOps V) (put : Val K → V) (lit : V → Option (Val K)) : Prop where
  truth : ∀ b, P.truth (put (.bool b)) = b
  ofBool : ∀ b, P.ofBool b = put (.bool b)
  str : ∀ s, P.str s = put (.str s)
  lit : ∀ v c, lit v = some c → v = put c
  neg : ∀ a, P.unary "-" (put (.num a)) = put (.num (-a))
  bin : ∀ op a b, (op = .div → b ≠ 0) → P.binop (binText op) (put (.num a)) (put (.num b)) = put (.num (arithOp op a b))
  cmp : ∀ op a b, Comparable op a b → (P.cmp (cmpText op) (put a) (put b) = true ↔ holds op a b)
  zero : P.zero = put (.num 0)
  add : ∀ a b, P.add (put (.num a)) (put (.num b)) = put (.num (a + b))

/-- The names are bound to objects that the state describes: the attributes of agents have the values of the state; lists have as many elements as
in the world, whose attributes have the values of the state; functions and methods compute what the functions of the world do; maps answer, for
a lane and a list of coordinates, with the distances of the world. -/
structure Sees (P : PyOps V) (put : Val K → V) (W : World K) (S : Scope) (ρ : State K) (σ : Store V) : Prop where
  attr : ∀ n ∈ S.objs, ∀ a ∈ S.attrs, P.getattr (σ n) a = put (ρ (.attr n a))
  length : ∀ l ∈ S.lists, (P.iter (σ l)).length = W.len l
  item : ∀ l ∈ S.lists, ∀ i v, (P.iter (σ l))[i]? = some v → ∀ a ∈ S.attrs, P.getattr v a = put (ρ (.elem l i a))
  call : ∀ f ∈ S.funs, ∀ vs, P.call (σ f) "" (vs.map put) = put (W.fn f vs)
  method : ∀ o ∈ S.funs, ∀ f vs, P.call (σ o) f (vs.map put) = put (W.fn (o ++ "." ++ f) vs)
  query : ∀ o ∈ S.maps, ∀ q l rs, P.call (σ o) (queryText q) [put (.str l), P.call (σ listName) "" (rs.map fun r => put (.num r))] = put (.num (W.dist q l rs))

/-- The value is a number. -/
def IsNum (v : Val K) : Prop := ∃ r, v = .num r

/-- The value is a string. -/
def IsStr (v : Val K) : Prop := ∃ s, v = .str s

mutual
/-- The term has a value in Python: arithmetic on numbers only, no division by zero, map queries for the name of a lane and numbers. -/
def SafeT [Field K] (W : World K) (ρ : State K) : Term K → Prop
  | .lit _ => True
  | .var _ => True
  | .neg t => SafeT W ρ t ∧ IsNum (evT W ρ t)
  | .bin op s t => SafeT W ρ s ∧ SafeT W ρ t ∧ IsNum (evT W ρ s) ∧ IsNum (evT W ρ t) ∧ (op = .div → toNum (evT W ρ t) ≠ 0)
  | .call _ args => SafeTs W ρ args
  | .lane _ l xs => SafeT W ρ l ∧ IsStr (evT W ρ l) ∧ ∀ k ∈ xs, IsNum (look ρ k)
  | .sum x l t => ∀ i, i < W.len l → SafeT W (bindTo ρ x l i) t ∧ IsNum (evT W (bindTo ρ x l i) t)
  | .sumList ts => SafeTs W ρ ts
def SafeTs [Field K] (W : World K) (ρ : State K) : Terms K → Prop
  | .nil => True
  | .cons t ts => SafeT W ρ t ∧ SafeTs W ρ ts
end

mutual
/-- The guard has a truth value in Python: comparisons of comparable values, calls that return truth values. `and` and `or` look at an operand
only if the ones before it leave the answer open. -/
def SafeF [Field K] [LinearOrder K] (W : World K) : State K → Fml K → Prop
  | _, .bool _ => True
  | ρ, .cmp op s t => SafeT W ρ s ∧ SafeT W ρ t ∧ Comparable op (evT W ρ s) (evT W ρ t)
  | ρ, .and fs => SafeAnd W ρ fs
  | ρ, .or fs => SafeOr W ρ fs
  | ρ, .not f => SafeF W ρ f
  | ρ, .callb f args => SafeTs W ρ args ∧ ∃ b, W.fn f (evTs W ρ args) = .bool b
  | ρ, .red _ x l f => ∀ i, i < W.len l → SafeF W (bindTo ρ x l i) f
def SafeAnd [Field K] [LinearOrder K] (W : World K) : State K → Fmls K → Prop
  | _, .nil => True
  | ρ, .cons f fs => SafeF W ρ f ∧ (evF W ρ f → SafeAnd W ρ fs)
def SafeOr [Field K] [LinearOrder K] (W : World K) : State K → Fmls K → Prop
  | _, .nil => True
  | ρ, .cons f fs => SafeF W ρ f ∧ (¬ evF W ρ f → SafeOr W ρ fs)
end

mutual
/-- The names of the term are names of agents, lists and functions; the map is called `track_map`. -/
def KnownT (S : Scope) : Term K → Prop
  | .lit _ => True
  | .var (.attr n a) => n ∈ S.objs ∧ a ∈ S.attrs
  | .var _ => False
  | .neg t => KnownT S t
  | .bin _ s t => KnownT S s ∧ KnownT S t
  | .call f args => f ∈ S.funs ∧ KnownTs S args
  | .lane _ l xs => "track_map" ∈ S.maps ∧ KnownT S l ∧ ∀ k ∈ xs, ∃ n ∈ S.objs, ∃ a ∈ S.attrs, k = .attr n a
  | .sum x l t => l ∈ S.lists ∧ S.free x = true ∧ KnownT (S.bind x) t
  | .sumList _ => False
def KnownTs (S : Scope) : Terms K → Prop
  | .nil => True
  | .cons t ts => KnownT S t ∧ KnownTs S ts
end

mutual
/-- The same for formulas. -/
def KnownF : Scope → Fml K → Prop
  | _, .bool _ => True
  | S, .cmp _ s t => KnownT S s ∧ KnownT S t
  | S, .and fs => KnownFs S fs
  | S, .or fs => KnownFs S fs
  | S, .not f => KnownF S f
  | S, .callb f args => f ∈ S.funs ∧ KnownTs S args
  | S, .red _ x l f => l ∈ S.lists ∧ S.free x = true ∧ KnownF (S.bind x) f
def KnownFs : Scope → Fmls K → Prop
  | _, .nil => True
  | S, .cons f fs => KnownF S f ∧ KnownFs S fs
end

/-- The coordinates of a map query as they are written in Python. -/
def writeKeys : List Key → Exprs V
  | [] => .nil
  | .attr n a :: ks => .cons (.attr (.name n) a) (writeKeys ks)
  | _ :: ks => .cons .opaque (writeKeys ks)

mutual
/-- The term as it is written in Python. -/
def writeT (put : Val K → V) : Term K → Expr V
  | .lit (.str s) => .str s
  | .lit v => .const (put v)
  | .var (.attr n a) => .attr (.name n) a
  | .var _ => .opaque
  | .neg t => .unary (.other "-") (writeT put t)
  | .bin op s t => .binop (binText op) (writeT put s) (writeT put t)
  | .call f args => .call f (writeTs put args)
  | .lane q l xs => .mcall "track_map" (queryText q) (.cons (writeT put l) (.cons (.call listName (writeKeys xs)) .nil))
  | .sum x l t => .red .sum (writeT put t) x (.name l)
  | .sumList _ => .opaque
def writeTs (put : Val K → V) : Terms K → Exprs V
  | .nil => .nil
  | .cons t ts => .cons (writeT put t) (writeTs put ts)
end

mutual
/-- The formula as it is written in Python. -/
def writeF (put : Val K → V) : Fml K → Expr V
  | .bool b => .const (put (.bool b))
  | .cmp op s t => .compare (writeT put s) (.cons (cmpText op) (writeT put t) .nil)
  | .and fs => .boolop .and (writeFs put fs)
  | .or fs => .boolop .or (writeFs put fs)
  | .not f => .unary .not (writeF put f)
  | .callb f args => .call f (writeTs put args)
  | .red all x l f => .red (if all then .all else .any) (writeF put f) x (.name l)
def writeFs (put : Val K → V) : Fmls K → Exprs V
  | .nil => .nil
  | .cons f fs => .cons (writeF put f) (writeFs put fs)
end

/-- For this state, every map query of the guard, unrolled and with the elements of lists looked up, is answered from a segment found at a corner of the
rectangle, and the enclosure on it is right (the condition of C23). -/
def QueriesFit [Field K] [LinearOrder K] {Seg : Type} (W : World K) (M : Road K Seg) (ρ : State K) (s₀ s : Sensed K (Iv K)) (f : Fml K) : Prop :=
  ∀ u s₂, unrollF s₀.len f = .ok u → addElems s u = .ok s₂ → asksF W ρ (QueryFits M s₂.cont ρ) u

end Verif.Rd.Spec
