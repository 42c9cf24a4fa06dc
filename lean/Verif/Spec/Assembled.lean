import Verif.Model.Assembled
import Verif.Spec.Guard
import Verif.Spec.Sensor
import Verif.Spec.Safe

/-!
What controllers that are given by formulas mean (C55, C80): the variables `ego.x` are those of the agent itself, `others` are the other agents, a
rule applies when its guard is true.
-/

set_option autoImplicit false

namespace Verif.Asm.Spec

open Verif.Grd Verif.Grd.Spec Verif.Ver.Spec Verif.Asm

variable {K Seg : Type}

/-- The parameters of a controller: the variables of the agent itself, and the name of the list of the other agents with their variables. -/
structure Sig where
  own    : Sns.Def
  others : Option (String × Sns.Def)

/-- The controller declares these parameters, and names are distinct. -/
structure Declares (c : Controller K) (sg : Sig) : Prop where
  own    : ∃ t, Sns.egoType c.args = some t ∧ Dict.get? c.defs t = some sg.own
  ownNames : (sg.own.cont ++ (sg.own.disc ++ sg.own.static)).Nodup
  others : match sg.others with
    | none => Sns.otherArg c.args = none
    | some (n, df) => '.' ∉ n.toList ∧ (df.cont ++ (df.disc ++ df.static)).Nodup ∧
        ∃ t, Sns.otherArg c.args = some ⟨n, some t⟩ ∧ Dict.get? c.defs t = some df

/-- The value of the variable `x` of an agent with these continuous values, modes and static values. -/
def valueIn (df : Sns.Def) (v : List K × List (Val K) × List (Val K)) (x : String) : Option (Val K) :=
  (df.cont.zip (v.1.map Val.num) ++ (df.disc.zip v.2.1 ++ df.static.zip v.2.2)).lookup x

/-- The state of the system as the agent `a` names it. (Names without value do not matter.) -/
def view (sg : Sig) (a : String) (s : Snap K (Val K)) : State K
  | .attr n x => if n = "ego" then ((s.find? (fun o => decide (o.1 = a))).bind (fun o => valueIn sg.own o.2 x)).getD (.bool false) else .bool false
  | .elem l i x => match sg.others with
    | none => .bool false
    | some (n, df) => if l = n then (((s.filter (fun o => decide (o.1 ≠ a)))[i]?).bind (fun o => valueIn df o.2 x)).getD (.bool false) else .bool false
  | _ => .bool false

/-- The continuous variables of an agent, by the text that expressions use for them. -/
def ownVars (sg : Sig) (a : String) (s : Snap K (Val K)) (t : Rst.Text) : Option K :=
  (s.find? (fun o => decide (o.1 = a))).bind fun o =>
    ((sg.own.cont.zip o.2.1).find? (fun xv => decide (("ego" ++ "." ++ xv.1).toList = t))).map Prod.snd

/-- The discrete and static variables of an agent. -/
def ownReads (sg : Sig) (a : String) (s : Snap K (Val K)) : Reads K
  | .attr n x => if n = "ego" then (s.find? (fun o => decide (o.1 = a))).bind (fun o => (sg.own.disc.zip o.2.2.1 ++ sg.own.static.zip o.2.2.2).lookup x) else none
  | _ => none

mutual
/-- The term makes no map query. -/
def mapFreeT : Term K → Bool
  | .neg t => mapFreeT t
  | .bin _ s t => mapFreeT s && mapFreeT t
  | .call _ args => mapFreeTs args
  | .lane _ _ _ => false
  | .sum _ _ t => mapFreeT t
  | .sumList ts => mapFreeTs ts
  | _ => true
def mapFreeTs : Terms K → Bool
  | .nil => true
  | .cons t ts => mapFreeT t && mapFreeTs ts
end

mutual
/-- The formula makes no map query. -/
def mapFreeF : Fml K → Bool
  | .cmp _ s t => mapFreeT s && mapFreeT t
  | .and fs => mapFreeFs fs
  | .or fs => mapFreeFs fs
  | .not f => mapFreeF f
  | .callb _ args => mapFreeTs args
  | .red _ _ _ f => mapFreeF f
  | .bool _ => true
def mapFreeFs : Fmls K → Bool
  | .nil => true
  | .cons f fs => mapFreeF f && mapFreeFs fs
end

section
variable [Field K] [LinearOrder K]

/-- What does not change: functions, map, and the number of the other agents. -/
def ground (T : Tools K Seg) (sc : Scenario K) : Grd.Spec.World K := { fn := T.fn, len := fun _ => sc.agents.length - 1, dist := T.road.dist }

/-- The formula is true for the agent `a` in the state `s`. -/
def TrueFor (T : Tools K Seg) (sc : Scenario K) (sig : String → Sig) (a : String) (s : Snap K (Val K)) (f : Fml K) : Prop :=
  evF (ground T sc) (view (sig a) a s) f

/-- The meaning of rules and asserts, for agents with the parameters `sig`: a rule applies when its guard is true. -/
def meaningOf (T : Tools K Seg) (sc : Scenario K) (sig : String → Sig) : Meaning (Sense K) (Ready K) K (Val K) (Reads K) :=
  { holds := fun p a s => ∃ c r, (a, c) ∈ sc.agents ∧ r ∈ c.rules ∧ p = pathOf T r ∧ TrueFor T sc sig a s r.guard
    vars  := fun _ a s => ownVars (sig a) a s
    disc  := fun _ a s => ownReads (sig a) a s
    pre   := fun x a s => ∃ c y, (a, c) ∈ sc.agents ∧ y ∈ c.claims ∧ x = assertionOf T y ∧ TrueFor T sc sig a s y.pre
    cond  := fun x a s => ∀ c y, (a, c) ∈ sc.agents → y ∈ c.claims → x = assertionOf T y → TrueFor T sc sig a s y.cond }

/-- Every assert of every controller whose precondition is true is true. -/
def Fine (T : Tools K Seg) (sc : Scenario K) (sig : String → Sig) (s : Snap K (Val K)) : Prop :=
  ∀ a c y, (a, c) ∈ sc.agents → c.args ≠ [] → y ∈ c.claims → TrueFor T sc sig a s y.pre → TrueFor T sc sig a s y.cond

/-- The formulas of a controller. -/
def formulas (c : Controller K) : List (Fml K) := c.rules.map Rule.guard ++ c.claims.flatMap (fun y => [y.pre, y.cond])

/-- The formula only reads modes and static values of the agent itself, and makes no map queries. -/
structure ModeOnly (sg : Sig) (f : Fml K) : Prop where
  noRed   : hasRedF f = false
  noQuery : ∀ (W : Grd.Spec.World K) (ρ : State K), asksF W ρ (fun _ _ _ => False) f
  keys    : ∀ k ∈ keysF f, (∃ n, k = .name n) ∨ ∃ x ∈ sg.own.disc ++ sg.own.static, k = .attr "ego" x

/-- The scenario is well formed: names are distinct, controllers declare their parameters, no formula uses a name of a temporary variable, and
preconditions of asserts are about modes. -/
structure GoodScenario (sc : Scenario K) (sig : String → Sig) : Prop where
  names    : (sc.agents.map Prod.fst).Nodup
  declared : ∀ a c, (a, c) ∈ sc.agents → c.args ≠ [] → Declares c (sig a)
  plain    : ∀ a c, (a, c) ∈ sc.agents → ∀ f ∈ formulas c, ∀ i, Key.tmp i ∉ keysF f
  pre      : ∀ a c, (a, c) ∈ sc.agents → ∀ y ∈ c.claims, ModeOnly (sig a) y.pre

/-- Rectangles, modes and static values have one value per variable. -/
def Fitting (sc : Scenario K) (sig : String → Sig) (sd : Ver.StateDict K (Val K)) : Prop :=
  ∀ a c, (a, c) ∈ sc.agents → c.args ≠ [] → ∀ o ∈ sd,
    (o.1 = a → Sns.Fits (sig a).own ⟨o.2.1.box.1.zip o.2.1.box.2, o.2.2.1, o.2.2.2⟩) ∧
    (o.1 ≠ a → ∀ n df, (sig a).others = some (n, df) → Sns.Fits df ⟨o.2.1.box.1.zip o.2.1.box.2, o.2.2.1, o.2.2.2⟩)

/-- The map queries of a formula are enclosed by what is computed for the rectangles (see C23). -/
def QueriesFit (T : Tools K Seg) (sc : Scenario K) (sig : String → Sig) (a : String) (sd : Ver.StateDict K (Val K)) (s : Snap K (Val K)) (f : Fml K) : Prop :=
  ∀ se u se', senseIn sc a sd = .ok se → unrollF se.len f = .ok u → addElems se u = .ok se' →
    asksF (ground T sc) (view (sig a) a s) (QueryFits T.road se'.cont (view (sig a) a s)) u

/-- The numbers of coordinates, of modes and of static values of the agents are those of their definitions. `d` is the number of coordinates. -/
structure Shapes (sc : Scenario K) (sig : String → Sig) (d : String → Nat) : Prop where
  disc   : ∀ a c m, (a, c) ∈ sc.agents → c.args ≠ [] → Dict.get? sc.mode a = some m → m.length = c.disc.length
  own    : ∀ a c m st, (a, c) ∈ sc.agents → c.args ≠ [] → Dict.get? sc.mode a = some m → Dict.get? sc.static a = some st →
    d a = (sig a).own.cont.length ∧ m.length = (sig a).own.disc.length ∧ st.length = (sig a).own.static.length
  others : ∀ a c n df, (a, c) ∈ sc.agents → c.args ≠ [] → (sig a).others = some (n, df) → ∀ o c' m st, (o, c') ∈ sc.agents → o ≠ a →
    Dict.get? sc.mode o = some m → Dict.get? sc.static o = some st → d o = df.cont.length ∧ m.length = df.disc.length ∧ st.length = df.static.length

/-- The map queries of all formulas are enclosed by what is computed for the rectangles of a node. -/
def MapsFit (T : Tools K Seg) (sc : Scenario K) (sig : String → Sig) (b : Ver.Body (Sense K) (Ready K) K (Val K) (Reads K)) (tr : Ver.Trace K) : Prop :=
  ∀ i sd s a c, Boxes b tr i sd → Ver.Spec.Within s sd → (a, c) ∈ sc.agents → ∀ f ∈ formulas c, QueriesFit T sc sig a sd s f

/-- What is required of the tubes of a node. -/
structure TubesFit (T : Tools K Seg) (sc : Scenario K) (sig : String → Sig) (b : Ver.Body (Sense K) (Ready K) K (Val K) (Reads K)) (tr : Ver.Trace K) :
    Prop where
  shapes  : ∀ i sd, Boxes b tr i sd → Fitting sc sig sd
  queries : MapsFit T sc sig b tr

end

end Verif.Asm.Spec
