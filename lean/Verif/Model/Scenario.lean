import Verif.Model.Basic

/-!
Initial conditions of a scenario: `Scenario.add_agent` (verse/scenario/scenario.py:92-110), `set_init_single` (124-160), `set_init` (166-192),
`_check_init` (194-204), and `BaseAgent.set_initial*` (verse/agents/base_agent.py:43-61).

Lists are mutable objects in Python, so an initial condition is a reference to an object of the heap: a list of references to rows of numbers. Modes (tuples),
static and uncertain parameters are immutable values here (simplification).
-/

set_option autoImplicit false

namespace Verif.Scn

/-- The list objects of the program: rows of numbers, and lists of references to rows. -/
structure Heap (K : Type) where
  rows : List (List K)
  mats : List (List Nat)

variable {K V : Type}

/-- `copy.deepcopy` on the rows of a list: a row that occurs twice is copied once (the memo of `deepcopy`). -/
def copyRows (h : List (List K)) : List Nat → List (Nat × Nat) → List Nat → Except String (List (List K) × List Nat)
  | [], _, out => .ok (h, out)
  | r :: rs, memo, out =>
    match Dict.get? memo r with
    | some r' => copyRows h rs memo (out ++ [r'])
    | none =>
      match h[r]? with
      | none => .error "dangling"
      | some row => copyRows (h ++ [row]) rs (memo ++ [(r, h.length)]) (out ++ [h.length])

/-- `copy.deepcopy` of a list of rows: the new heap and the reference of the copy. -/
def deepcopy (h : Heap K) (refs : List Nat) : Except String (Heap K × Nat) :=
  (copyRows h.rows refs [] []).map (fun p => (⟨p.1, h.mats ++ [p.2]⟩, h.mats.length))

/-- The numbers in a list of rows. -/
def deref (h : Heap K) (m : Nat) : Option (List (List K)) := (h.mats[m]?).bind (fun rs => rs.mapM (fun r => h.rows[r]?))

/-- An agent: number of continuous and discrete variables of its decision logic (`none`: no decision logic), and its own initial condition. -/
structure Agent (V : Type) where
  sizes    : Option (Nat × Nat)
  initCont : Option Nat
  initDisc : Option (List V)
  static   : List V
  uncertain : List V

/-- The scenario. -/
structure Scen (V : Type) where
  agents : Dict String (Agent V)
  init   : Dict String Nat
  mode   : Dict String (List V)
  static : Dict String (List V)
  uncertain : Dict String (List V)

/-- State of the program. -/
structure St (K V : Type) where
  heap : Heap K
  scen : Scen V

/-- Lines 98-99 of scenario.py: the initial condition of the agent is copied, if there is one. -/
def copyInit (h : Heap K) (d : Dict String Nat) (id : String) : Option Nat → Except String (Heap K × Dict String Nat)
  | none => .ok (h, d)
  | some m => match h.mats[m]? with
    | none => .error "dangling"
    | some refs => (deepcopy h refs).map (fun p => (p.1, Dict.set d id p.2))

/-- Lines 100-101. -/
def copyMode (d : Dict String (List V)) (id : String) : Option (List V) → Dict String (List V)
  | none => d
  | some m => Dict.set d id m

/-- `Scenario.add_agent`, scenario.py:92-110, without the lane modes. -/
def addAgent (st : St K V) (id : String) (a : Agent V) : Except String (St K V) :=
  (copyInit st.heap st.scen.init id a.initCont).map (fun hi =>
    ⟨hi.1,
     { agents := Dict.set st.scen.agents id a
       init := hi.2
       mode := copyMode st.scen.mode id a.initDisc
       static := Dict.set st.scen.static id a.static
       uncertain := Dict.set st.scen.uncertain id a.uncertain }⟩)

/-- Lines 130-146: the checks on the sizes. -/
def sizesOk (a : Agent V) (rows : List (List K)) (mode : List V) : Bool :=
  match a.sizes with
  | none => true
  | some (nc, nd) => rows.all (fun r => decide (r.length = nc)) && decide (mode.length = nd)

/-- Lines 147-148: `init + init` for a single state. -/
def twoRows (refs : List Nat) : List Nat := if refs.length = 1 then refs ++ refs else refs

/-- `Scenario.set_init_single`, scenario.py:124-160. `init` refers to the list given by the caller. -/
def setInitSingle (st : St K V) (id : String) (init : Nat) (mode static uncertain : List V) : Except String (St K V) :=
  match Dict.get? st.scen.agents id with
  | none => .error "AssertionError"
  | some a =>
    match st.heap.mats[init]?, deref st.heap init with
    | some refs, some rows =>
      if refs.length = 1 ∨ refs.length = 2 then
        if sizesOk a rows mode then
          (deepcopy st.heap (twoRows refs)).bind fun p =>
            (deepcopy p.1 (twoRows refs)).map fun q =>
              ⟨q.1,
               { agents := Dict.set st.scen.agents id { a with initCont := some q.2, initDisc := some mode, static := static, uncertain := uncertain }
                 init := Dict.set st.scen.init id p.2
                 mode := Dict.set st.scen.mode id mode
                 static := Dict.set st.scen.static id static
                 uncertain := Dict.set st.scen.uncertain id uncertain }⟩
        else .error "AssertionError"
      else .error "AssertionError"
    | _, _ => .error "dangling"

/-- One element of the lists given to `set_init`. -/
structure Given (V : Type) where
  init : Nat
  mode : List V
  static : List V
  uncertain : List V

/-- The loop of lines 188-192. -/
def setLoop (st : St K V) : List String → List (Given V) → Except String (St K V)
  | id :: ids, g :: gs => (setInitSingle st id g.init g.mode g.static g.uncertain).bind fun st' => setLoop st' ids gs
  | _, _ => .ok st

/-- `Scenario.set_init`, scenario.py:166-192; `given` zips the lists, with `[]` for the optional ones. -/
def setInit (st : St K V) (given : List (Given V)) : Except String (St K V) :=
  if given.length = st.scen.agents.length then setLoop st st.scen.agents.keys given else .error "AssertionError"

/-- `_check_init`, scenario.py:194-204. -/
def checkInit (s : Scen V) : Bool :=
  s.agents.keys.all (fun id => s.init.mem id && s.mode.mem id && s.static.mem id && s.uncertain.mem id)

end Verif.Scn
