import Verif.Model.Levels

/-! Levels and transitions between them (C117). -/

set_option autoImplicit false

namespace Verif.Levels.Spec

/-- The name of a level: 0 is the highest, 2 the lowest. -/
def level : Fin 3 → String
  | 0 => "T0"
  | 1 => "T1"
  | 2 => "T2"

/-- The name of the transition from one level to another. -/
def between (i j : Fin 3) : String := match i, j with
  | 1, 0 => "M10"
  | 0, 1 => "M01"
  | 1, 2 => "M12"
  | 2, 1 => "M21"
  | _, _ => ""

/-- The level `j` is next to `i`, in the direction of the mode. -/
def Next (mode : String) (i j : Fin 3) : Prop := (mode = "MoveUp" ∧ i.1 = j.1 + 1) ∨ (mode = "MoveDown" ∧ j.1 = i.1 + 1)

/-- Where an agent can be: on a level, or moving to the next one. -/
inductive At : Fin 3 → String × String → Prop
  | level (i : Fin 3) : At i (level i, "Normal")
  | moving (i j : Fin 3) (mode : String) (h : Next mode i j) : At j (between i j, mode)

/-- Height gained by the modes an agent changes to: one level for `MoveUp`, minus one for `MoveDown`. -/
def gained : List String → Int
  | [] => 0
  | m :: ms => (if m = "MoveUp" then 1 else if m = "MoveDown" then -1 else 0) + gained ms

end Verif.Levels.Spec
