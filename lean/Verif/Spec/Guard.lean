import Verif.Model.Guard

/-!
What a guard means: its truth in one state of the system. Written from the meaning of Python expressions, not from
`guard.py`.
-/

set_option autoImplicit false

namespace Verif.Grd.Spec

/-- One state: the value of every variable. -/
abbrev State (K : Type) := Key → Val K

/-- What does not change with the state: the functions guards may call, the number of elements of the lists, and the map queries. -/
structure World (K : Type) where
  fn : String → List (Val K) → Val K
  len : String → Nat
  dist : Query → String → List K → K

variable {K : Type}

/-- The value of a variable; a bare name is a mode name and stands for itself. -/
def look (ρ : State K) : Key → Val K
  | .name s => .str s
  | k => ρ k

/-- The state in which `x` is the `i`-th element of the list `l`. -/
def bindTo (ρ : State K) (x l : String) (i : Nat) : State K
  | .attr n a => if n = x then ρ (.elem l i a) else ρ (.attr n a)
  | k => ρ k

/-- Value as a number (0 if it is not a number: such guards are type errors). -/
def toNum [Zero K] : Val K → K
  | .num r => r
  | _ => 0

/-- Value as a string. -/
def toStr : Val K → String
  | .str s => s
  | _ => ""

/-- Arithmetic. -/
def arithOp [Field K] : BinOp → K → K → K
  | .add, a, b => a + b
  | .sub, a, b => a - b
  | .mul, a, b => a * b
  | .div, a, b => a / b

/-- Sum of values: the sum of one value is that value. -/
def sumVals [Field K] : List (Val K) → Val K
  | [v] => v
  | vs => .num (vs.map toNum).sum

mutual
/-- Value of a term. -/
def evT [Field K] (W : World K) (ρ : State K) : Term K → Val K
  | .lit v => v
  | .var k => look ρ k
  | .neg t => .num (-toNum (evT W ρ t))
  | .bin op s t => .num (arithOp op (toNum (evT W ρ s)) (toNum (evT W ρ t)))
  | .call f args => W.fn f (evTs W ρ args)
  | .lane q l xs => .num (W.dist q (toStr (evT W ρ l)) (xs.map (fun k => toNum (look ρ k))))
  | .sum x l t => sumVals ((List.range (W.len l)).map (fun i => evT W (bindTo ρ x l i) t))
  | .sumList ts => sumVals (evTs W ρ ts)
def evTs [Field K] (W : World K) (ρ : State K) : Terms K → List (Val K)
  | .nil => []
  | .cons t ts => evT W ρ t :: evTs W ρ ts
end

/-- Comparison of two values. -/
def holds [LinearOrder K] : CmpOp → Val K → Val K → Prop
  | .eq, a, b => a = b
  | .ne, a, b => a ≠ b
  | .ge, .num a, .num b => a ≥ b
  | .gt, .num a, .num b => a > b
  | .lt, .num a, .num b => a < b
  | .le, .num a, .num b => a ≤ b
  | .ge, .str a, .str b => a ≥ b
  | .gt, .str a, .str b => a > b
  | .lt, .str a, .str b => a < b
  | .le, .str a, .str b => a ≤ b
  | _, _, _ => False

mutual
/-- Truth of a guard. -/
def evF [Field K] [LinearOrder K] (W : World K) : State K → Fml K → Prop
  | _, .bool b => b = true
  | ρ, .cmp op s t => holds op (evT W ρ s) (evT W ρ t)
  | ρ, .and fs => evAll W ρ fs
  | ρ, .or fs => evAny W ρ fs
  | ρ, .not f => ¬ evF W ρ f
  | ρ, .callb f args => W.fn f (evTs W ρ args) = .bool true
  | ρ, .red true x l f => ∀ i, i < W.len l → evF W (bindTo ρ x l i) f
  | ρ, .red false x l f => ∃ i, i < W.len l ∧ evF W (bindTo ρ x l i) f
def evAll [Field K] [LinearOrder K] (W : World K) : State K → Fmls K → Prop
  | _, .nil => True
  | ρ, .cons f fs => evF W ρ f ∧ evAll W ρ fs
def evAny [Field K] [LinearOrder K] (W : World K) : State K → Fmls K → Prop
  | _, .nil => False
  | ρ, .cons f fs => evF W ρ f ∨ evAny W ρ fs
end

mutual
/-- Truth of a formula given to the solver. -/
def evZ [Field K] [LinearOrder K] (W : World K) (ρ : State K) : ZFml K → Prop
  | .const b => b = true
  | .cmp op s t => holds op (evT W ρ s) (evT W ρ t)
  | .and fs => evZAll W ρ fs
  | .or fs => evZAny W ρ fs
  | .not f => ¬ evZ W ρ f
def evZAll [Field K] [LinearOrder K] (W : World K) (ρ : State K) : ZFmls K → Prop
  | .nil => True
  | .cons f fs => evZ W ρ f ∧ evZAll W ρ fs
def evZAny [Field K] [LinearOrder K] (W : World K) (ρ : State K) : ZFmls K → Prop
  | .nil => False
  | .cons f fs => evZ W ρ f ∨ evZAny W ρ fs
end

/-- Truth of what the translation to the solver returns: a truth value or a formula. -/
def evRes [Field K] [LinearOrder K] (W : World K) (ρ : State K) : ZRes K → Prop
  | .inl b => b = true
  | .inr z => evZ W ρ z

mutual
/-- `P` holds for every map query (kind, lane, coordinates) of the term in the state. For guards without `any`/`all`/`sum`. -/
def asksT [Field K] (W : World K) (ρ : State K) (P : Query → String → List Key → Prop) : Term K → Prop
  | .neg t => asksT W ρ P t
  | .bin _ s t => asksT W ρ P s ∧ asksT W ρ P t
  | .call _ args => asksTs W ρ P args
  | .lane q l xs => asksT W ρ P l ∧ P q (toStr (evT W ρ l)) xs
  | .sumList ts => asksTs W ρ P ts
  | _ => True
def asksTs [Field K] (W : World K) (ρ : State K) (P : Query → String → List Key → Prop) : Terms K → Prop
  | .nil => True
  | .cons t ts => asksT W ρ P t ∧ asksTs W ρ P ts
end

mutual
/-- `P` holds for every map query of the guard in the state. For guards without `any`/`all`/`sum`. -/
def asksF [Field K] (W : World K) (ρ : State K) (P : Query → String → List Key → Prop) : Fml K → Prop
  | .cmp _ s t => asksT W ρ P s ∧ asksT W ρ P t
  | .and fs => asksFs W ρ P fs
  | .or fs => asksFs W ρ P fs
  | .not f => asksF W ρ P f
  | .callb _ args => asksTs W ρ P args
  | _ => True
def asksFs [Field K] (W : World K) (ρ : State K) (P : Query → String → List Key → Prop) : Fmls K → Prop
  | .nil => True
  | .cons f fs => asksF W ρ P f ∧ asksFs W ρ P fs
end

/-- The variable has a numerical value in the interval. -/
def Within [LinearOrder K] (ρ : State K) (k : Key) (iv : Iv K) : Prop :=
  ∃ r, look ρ k = .num r ∧ iv.1 ≤ r ∧ r ≤ iv.2

/-- The state lies in the box given by a dictionary of intervals. -/
def InBox [LinearOrder K] (ρ : State K) (cont : Dict Key (Iv K)) : Prop :=
  ∀ k iv, Dict.get? cont k = some iv → Within ρ k iv

/-- The state has the discrete values of a dictionary. -/
def HasDisc (ρ : State K) (disc : Dict Key (Val K)) : Prop :=
  ∀ k v, Dict.get? disc k = some v → look ρ k = v

/-- The continuous part of the state lies in what was sensed. -/
structure InSensed [LinearOrder K] (ρ : State K) (s : Sensed K (Iv K)) : Prop where
  box : InBox ρ s.cont
  boxL : ∀ l a ivs i iv, Dict.get? s.contL (l, a) = some ivs → ivs[i]? = some iv → Within ρ (.elem l i a) iv

/-- The discrete part of the state is what was sensed. -/
structure DiscSensed {V : Type} (ρ : State K) (s : Sensed K V) : Prop where
  disc : HasDisc ρ s.disc
  discL : ∀ l a vs i v, Dict.get? s.discL (l, a) = some vs → vs[i]? = some v → ρ (.elem l i a) = v

/-- The map query is enclosed by what the verifier computes for the box: the point lies on the segment that is found at the lower corner
of the box or on the one at the upper corner, the enclosure on this segment is right, and the name of a physical lane stands for itself. -/
def QueryFits [LinearOrder K] [Zero K] {Seg : Type} (M : Road K Seg) (box : Dict Key (Iv K)) (ρ : State K) (q : Query) (lane : String)
    (xs : List Key) : Prop :=
  M.phys (M.phys lane) = M.phys lane ∧ ∀ lo hi, corners box xs = .ok (lo, hi) →
    let p := xs.map (fun k => toNum (look ρ k))
    let seg := M.segment (M.phys lane) p
    (seg = M.segment (M.phys lane) lo ∨ seg = M.segment (M.phys lane) hi) ∧
      (M.enclose q seg lo hi).1 ≤ M.measure q seg p ∧ M.measure q seg p ≤ (M.enclose q seg lo hi).2

/-- A constant, or a variable with a sensed discrete value, that is not a truth value. -/
def atomKnown (disc : Dict Key (Val K)) : Term K → Bool
  | .lit (.bool _) => false
  | .lit _ => true
  | .var k => match Dict.get? disc k with
    | some (.bool _) => false
    | some _ => true
    | none => false
  | _ => false

mutual
/-- No comparison is left whose both sides are known constants or modes. -/
def Resolved (disc : Dict Key (Val K)) : Fml K → Prop
  | .cmp _ s t => ¬ (atomKnown disc s = true ∧ atomKnown disc t = true)
  | .and fs => Resolveds disc fs
  | .or fs => Resolveds disc fs
  | .not f => Resolved disc f
  | _ => True
def Resolveds (disc : Dict Key (Val K)) : Fmls K → Prop
  | .nil => True
  | .cons f fs => Resolved disc f ∧ Resolveds disc fs
end

/-- The lists have the sensed lengths. -/
def LenSensed (W : World K) (len : Dict String Nat) : Prop := ∀ l n, Dict.get? len l = some n → W.len l = n

/-- The solver's positive and negative answers to well-formed queries are right. -/
def Correct [Field K] [LinearOrder K] (W : World K) (S : Solver K) : Prop :=
  ∀ z bs, z.wf = true → (S z bs = .sat → ∃ ρ : State K, (∀ b ∈ bs, Within ρ b.1 b.2) ∧ evZ W ρ z) ∧
    (S z bs = .unsat → ∀ ρ : State K, (∀ b ∈ bs, Within ρ b.1 b.2) → ¬ evZ W ρ z)

/-- The solver never gives up. -/
def Complete [Field K] [LinearOrder K] (S : Solver K) : Prop := ∀ z bs, z.wf = true → S z bs ≠ .unknown

end Verif.Grd.Spec
