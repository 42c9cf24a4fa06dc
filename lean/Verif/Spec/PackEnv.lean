import Verif.Model.PackEnv
import Verif.Spec.Sensor

/-! What a controller should be given in `simulate` (C84): objects whose attributes are the values of the agents. -/

set_option autoImplicit false

namespace Verif.Sns

variable {C D X : Type}

/-- The names of all variables of a type. -/
def Def.names (df : Def) : List String := df.cont ++ (df.disc ++ df.static)

/-- The value of a variable of an agent, by name. -/
inductive HasValue (df : Def) (v : AgentState C D) : String → C ⊕ D → Prop
  | cont {i : Nat} {k x} : df.cont[i]? = some k → v.cont[i]? = some x → HasValue df v k (.inl x)
  | disc {i : Nat} {k x} : df.disc[i]? = some k → v.mode[i]? = some x → HasValue df v k (.inr x)
  | static {i : Nat} {k x} : df.static[i]? = some k → v.static[i]? = some x → HasValue df v k (.inr x)

/-- The object has exactly the variables of the agent as attributes, with their values. -/
def IsAgent (df : Def) (v : AgentState C D) (o : Dict String (C ⊕ D)) : Prop := ∀ k x, Dict.get? o k = some x ↔ HasValue df v k x

end Verif.Sns
