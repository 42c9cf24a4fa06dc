import Verif.Model.Classes

/-! What the classes of a file of decision logic declare (C113). -/

set_option autoImplicit false

namespace Verif.Classes.Spec

/-- The variable a statement of a class declares, and its annotation. -/
def Declares : Member → String × Option String → Prop
  | .assign t _, p => t = .name p.1 ∧ p.2 = none
  | .ann t typ _, p => t = .name p.1 ∧ p.2 = typ
  | .other, _ => False

/-- The variables a class declares, in order: one for every statement that declares one. -/
inductive Vars : List Member → List (String × Option String) → Prop
  | nil : Vars [] []
  | var {m l p ps} : Declares m p → Vars l ps → Vars (m :: l) (p :: ps)
  | skip {l ps} : Vars l ps → Vars (.other :: l) ps

/-- What is supported in classes of modes: assignments to single names. -/
def Simple : Member → Prop
  | .assign t more => more = false ∧ ∃ s, t = .name s
  | .ann t _ _ => ∃ s, t = .name s
  | .other => True

/-- What is supported in classes of states: in addition, annotations are names. -/
def Typed : Member → Prop
  | .ann _ typ _ => ∃ s, typ = some s
  | _ => True

/-- How variables are used, by their names. -/
inductive Kind where
  | cont | disc | static
  deriving DecidableEq

/-- `type` is static, names with `mode` in them are discrete, all others continuous. -/
def KindOf (s : String) : Kind → Prop
  | .static => s = "type"
  | .disc => s ≠ "type" ∧ "mode".toList <:+: s.toList
  | .cont => s ≠ "type" ∧ ¬ "mode".toList <:+: s.toList

/-- The names of one kind among the variables, in order. -/
inductive Of (k : Kind) : List (String × Option String) → List (String × Option String) → Prop
  | nil : Of k [] []
  | take {p l m} : KindOf p.1 k → Of k l m → Of k (p :: l) (p :: m)
  | drop {p l m} : ¬ KindOf p.1 k → Of k l m → Of k (p :: l) m

/-- The statements of a file that are executed when it is imported, up to the check for `__main__`: those outside of `if`. -/
inductive Before : List Stmt → List Stmt → Prop
  | nil : Before [] []
  | main {l} : Before (.main :: l) []
  | next {s l m} : s ≠ .main → Before l m → Before (s :: l) (s :: m)

/-- The last class of a name. -/
def Last (l : List Stmt) (name : String) (body : List Member) : Prop :=
  ∃ pre bases post, l = pre ++ .cls name bases body :: post ∧ ∀ b y, .cls name b y ∉ post

end Verif.Classes.Spec
