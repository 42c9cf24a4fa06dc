import Verif.Props.Both

/-!
A case that meets the hypotheses of C79, and one in which two agents switch at the same time.
-/

set_option autoImplicit false
set_option synthInstance.maxSize 4000
set_option synthInstance.maxHeartbeats 400000

namespace Verif.Props

open Verif.Both Verif.Rect.Spec Verif.Rst.Spec
open Verif.Ver.Spec (Phase PathIn Execution Starts Tracks SoundTubes NodeOK Visited)

/-- A value of the simulator: a number or a mode. -/
abbrev SVal := ℚ ⊕ String

theorem same_find {snap : Ver.Spec.Snap ℚ String} {sd : Sim.StateDict SVal} (h : Same Sum.inl Sum.inr snap sd) (n : String) :
    (snap.find? (fun x => decide (x.1 = n)) = none ∧ sd.find? (fun x => decide (x.1 = n)) = none) ∨
    ∃ x y, snap.find? (fun x => decide (x.1 = n)) = some x ∧ sd.find? (fun x => decide (x.1 = n)) = some y ∧
      y.2.1.state = x.2.1.map Sum.inl ∧ y.2.2.1 = x.2.2.1.map Sum.inr := by
  induction h with
  | nil => exact .inl ⟨rfl, rfl⟩
  | @cons x y _ _ hr _ ih =>
    obtain ⟨h1, h2, h3, _⟩ := hr
    by_cases e : x.1 = n
    · right
      refine ⟨x, y, ?_, ?_, h2, h3⟩
      · rw [List.find?_cons_of_pos (by simp [e])]
      · rw [List.find?_cons_of_pos (by simp [h1, e])]
    · rw [List.find?_cons_of_neg (by simp [e]), List.find?_cons_of_neg (by simp [h1, e])]
      exact ih

/-- A bounded exploration returns a tree. -/
theorem exploration_returns {X T A : Type} (cfg : Engine.Cfg X T A) (h1 : 0 < cfg.ahead) (m : Nat) (h2 : cfg.maxHeight = some m) (b : X) (tr : T) :
    ∃ t, Verif.Spec.Returned cfg b tr t := by
  obtain ⟨N, hN⟩ := C08_terminates cfg h1 m h2 b tr
  obtain ⟨s, hs⟩ := hN (List.replicate N 0) (by simp)
  obtain ⟨g, hg, _⟩ := C07_loop_computes_exploration cfg h1 b tr _ s hs
  exact ⟨g.map Verif.Spec.Label.ofRec, h1, _, s, g, hs, hg, rfl⟩

/-- Simulation of an agent with constant speed. -/
def simDrift (v : ℚ) (x : List SVal) (m : Nat) : List (Sim.Row SVal) :=
  (List.range (m + 1)).map (fun (j : Nat) => ⟨j, x.map (Sum.map (· + v * (j : ℚ)) id)⟩)

theorem simDrift_flow (v : ℚ) (x : List ℚ) (m j : Nat) (row : Sim.Row SVal) (h : (simDrift v (x.map Sum.inl) m)[j]? = some row) :
    row = ⟨(j : ℚ) * 1, (x.map (· + v * (j : ℚ))).map Sum.inl⟩ := by
  unfold simDrift at h
  rw [List.getElem?_map] at h
  obtain ⟨i, hi, rfl⟩ := Option.map_eq_some_iff.1 h
  obtain ⟨hj, hij⟩ := List.getElem?_eq_some_iff.1 hi
  rw [List.getElem_range] at hij
  subst hij
  simp only [mul_one, List.map_map, Sim.Row.mk.injEq, true_and]
  rfl

namespace BothEx

/-! #### one agent that switches -/

open VerEx ExecEx

/-- What an agent senses: its own state. -/
def ssense (a : String) (sd : Sim.StateDict SVal) : List SVal := ((sd.find? (fun x => decide (x.1 = a))).map (fun x => x.2.1.state)).getD []

def inside? (lo hi : ℚ) (s : List SVal) : Bool :=
  match s with
  | [.inl x] => decide (lo ≤ x ∧ x ≤ hi)
  | _ => false

def slogic (nargs : Nat) (paths : List (Sim.Path (List SVal) SVal)) : Sim.Logic (List SVal) SVal :=
  { nargs := nargs, asserts := [], paths := paths, cont := ["x"], disc := ["agent_mode"], discType := ["AgentMode"] }

def spaths : List (Sim.Path (List SVal) SVal) :=
  [⟨"agent_mode", inside? (3/2) 5, fun _ => .inr "B"⟩, ⟨"x", inside? (3/2) 5, fun _ => .inl 10⟩]

def sbody : Sim.Body (List SVal) SVal :=
  { agents := [("a", slogic 1 spaths), ("b", slogic 0 [])], mode := [("a", [.inr "A"]), ("b", [.inr "A"])],
    init := [("a", [.inl (1/4)]), ("b", [.inl (11/2)])], static := [("a", []), ("b", [])] }

def sspeed (a : String) (m : List SVal) : ℚ := if a = "a" ∧ m = [.inr "A"] then 1 else 0

def swld : Sim.World (List SVal) SVal :=
  { sense := ssense, sim := fun a m x remain => simDrift (sspeed a m) x remain.num.toNat, mapH := fun t _ _ => t, unsafeContinue := false }

def scfg : Engine.Cfg (Sim.Body (List SVal) SVal) (Sim.Trace SVal) Sim.Hits :=
  { kind := .sim, parallel := false, ahead := 1, maxHeight := some 4, horizon := 3, round10 := id, roundN := id, step := Sim.simStep swld, noHits := .ok none }

theorem sspeed_eq (a : String) (m : List String) : sspeed a (m.map Sum.inr) = speed a m := by
  unfold sspeed speed
  have : (m.map Sum.inr = [(.inr "A" : SVal)]) ↔ m = ["A"] := by
    constructor
    · intro h
      match m, h with
      | [x], h => simpa using h
      | _ :: _ :: _, h => simp at h
    · rintro rfl; rfl
  simp only [this]

theorem simulatesFlow : SimulatesFlow Sum.inl Sum.inr swld flow 1 3 := by
  intro a m x k
  refine ⟨fun j => x.map (· + speed a m * (j : ℚ)), ?_, ?_, ?_, ?_⟩
  · intro k; simp
  · simp
  · intro j; simp
  · intro j row h
    simp only [swld, sspeed_eq] at h
    exact simDrift_flow _ _ _ _ _ h

theorem holds_iff {var : String} {lo hi : ℚ} {val : Rst.Val String Unit} {snap : Ver.Spec.Snap ℚ String} {sd : Sim.StateDict SVal}
    (h : Same Sum.inl Sum.inr snap sd) : inside? lo hi (ssense "a" sd) = true ↔ meaning.holds (path var lo hi val) "a" snap := by
  simp only [meaning, path]
  unfold ssense point
  rcases same_find h "a" with ⟨e1, e2⟩ | ⟨x, y, e1, e2, e3, _⟩
  · rw [e1, e2]; simp [inside?, inInterval]
  · rw [e1, e2]
    simp only [Option.map_some, Option.getD_some, e3]
    generalize x.2.1 = l
    match l with
    | [] => simp [inside?, inInterval]
    | [v] => simp [inside?, inInterval, and_comm]
    | _ :: _ :: _ => simp [inside?, inInterval]

theorem sameScenario : SameScenario Sum.inl Sum.inr meaning wld (body okA okP) swld sbody := by
  refine ⟨.cons ⟨rfl, rfl, rfl, rfl, rfl, .cons ⟨rfl, ?_⟩ (.cons ⟨rfl, ?_⟩ .nil)⟩ (.cons ⟨rfl, rfl, rfl, rfl, rfl, .nil⟩ .nil),
    fun st sm dm => rfl, ?_, ?_, ?_⟩
  · intro snap sd hs
    refine ⟨holds_iff hs, fun _ h => ?_, fun _ _ => ⟨"B", .const _, rfl⟩⟩
    exact absurd h (by decide)
  · intro snap sd hs
    refine ⟨holds_iff hs, fun _ _ => ⟨_, 10, rfl, ?_, rfl⟩, fun _ h => ?_⟩
    · have hrd : rd ['1', '0'] = some 10 := by decide +kernel
      exact hrd
    · exact absurd h (by decide)
  · intro a ha
    simp only [body, List.mem_cons, List.not_mem_nil, or_false] at ha
    rcases ha with rfl | rfl
    · exact ⟨[], rfl, rfl⟩
    · exact ⟨[], rfl, rfl⟩
  · intro a ha
    simp only [body, List.mem_cons, List.not_mem_nil, or_false] at ha
    rcases ha with rfl | rfl
    · exact ⟨["A"], rfl, rfl, rfl⟩
    · exact ⟨["A"], rfl, rfl, rfl⟩
  · intro a ha
    simp only [body, List.mem_cons, List.not_mem_nil, or_false] at ha
    rcases ha with rfl | rfl
    · exact ⟨[1/4], ([0], [1]), rfl, rfl, inside1 _ _ _ (by norm_num) (by norm_num), rfl⟩
    · exact ⟨[11/2], ([5], [6]), rfl, rfl, inside1 _ _ _ (by norm_num) (by norm_num), rfl⟩

theorem swf : Spec.Body.WF sbody := by
  refine ⟨by decide, ?_⟩
  intro a ha
  have : ∀ n p, Spec.Logic.WF (slogic n p) := by
    intro n p
    refine ⟨?_, ?_, ?_, ?_⟩ <;> simp only [slogic] <;> decide +kernel
  simp only [sbody, List.mem_cons, List.not_mem_nil, or_false] at ha
  rcases ha with rfl | rfl <;> exact this _ _

/-- The start time and the modes of the children of the root, and its traces. -/
theorem sroot_run : (((Sim.simulateOne swld ⟨0, 0, sbody, []⟩ 3).map (fun r => (r.next.map (fun c => (c.start, c.body.mode)), r.trace))).toOption) =
    some ([(2, [("a", [.inr "B"]), ("b", [.inr "A"])])],
      [("a", [⟨0, [.inl (1/4)]⟩, ⟨1, [.inl (5/4)]⟩, ⟨2, [.inl (9/4)]⟩]), ("b", [⟨0, [.inl (11/2)]⟩, ⟨1, [.inl (11/2)]⟩, ⟨2, [.inl (11/2)]⟩])]) := by
  decide +kernel

theorem scontrolled {a : String} {dl : Sim.Logic (List SVal) SVal} (h : Spec.Controlled sbody a dl) : a = "a" := by
  obtain ⟨h1, h2⟩ := h
  simp only [sbody, List.mem_cons, Prod.mk.injEq, List.not_mem_nil, or_false] at h1
  rcases h1 with h1 | ⟨_, rfl⟩
  · exact h1.1
  · exact absurd rfl h2

/-- `simulate` returns a tree with a switch of `a` after two steps. -/
theorem scase : ∃ st us, Simulated swld scfg sbody st ∧ PathIn st us ∧ us.length = 2 ∧ (∀ u ∈ us.dropLast, OneAtATime swld u) ∧
    ∀ u ∈ us, u.start < ((3 : Nat) : ℚ) * 1 := by
  obtain ⟨st, hst⟩ := exploration_returns scfg (by decide) 4 rfl sbody []
  have hx := Engine.returned_explores hst
  obtain ⟨-, h1, h2, h3 | ⟨-, -, -, h3⟩⟩ := Engine.explores_node hx
  · refine absurd ⟨?_, ?_⟩ h3.1
    · intro m hm; cases hm; omega
    · show 0 < scfg.round10 (scfg.horizon - 0)
      decide +kernel
  have e3 : scfg.round10 (scfg.horizon - 0) = 3 := by decide +kernel
  have h3' : List.Forall₂ (fun (c : Engine.Child (Sim.Body (List SVal) SVal) (Sim.Trace SVal)) t => Verif.Spec.Explores _ (0 + 1) (scfg.roundN c.start) c.body c.trace t)
    (Sim.simStep swld ⟨0, 0, sbody, []⟩ (scfg.round10 (scfg.horizon - 0))).next st.kids := h3
  rw [e3] at h3'
  have hrun := sroot_run
  unfold Sim.simStep at h3'
  cases ho : Sim.simulateOne swld ⟨0, 0, sbody, []⟩ 3 with
  | error e => rw [ho] at hrun; cases hrun
  | ok r =>
    rw [ho] at hrun h3'
    simp only [Except.map, Except.toOption, Option.some.injEq, Prod.mk.injEq] at hrun
    obtain ⟨r1, _⟩ := hrun
    match hn : r.next, r1 with
    | [], r1 => cases r1
    | _ :: _ :: _, r1 => simp at r1
    | [c], r1 =>
      simp only [hn] at h3'
      simp only [List.map_cons, List.map_nil, List.cons.injEq, Prod.mk.injEq, and_true] at r1
      cases hk : st.kids with
      | nil => rw [hk] at h3'; cases h3'
      | cons u rest =>
        rw [hk] at h3'
        cases h3' with
        | cons hu _ =>
          obtain ⟨-, u1, -⟩ := Engine.explores_node hu
          refine ⟨st, [st.label, u.label], ⟨rfl, hst, swf⟩, .down (u := u) (by rw [hk]; simp) .root, rfl, ?_, ?_⟩
          · intro v hv
            simp only [List.dropLast_cons_cons, List.dropLast_singleton, List.mem_singleton] at hv
            subst hv
            intro i a a' dl dl' env env' c1 c2 _ _ _ _
            rw [h2] at c1 c2
            rw [scontrolled c1, scontrolled c2]
          · intro v hv
            simp only [List.mem_cons, List.not_mem_nil, or_false] at hv
            rcases hv with rfl | rfl
            · rw [h1]
              decide +kernel
            · rw [u1, r1.1]
              decide +kernel

/-- The hypotheses of `C79_simulations_covered_partial` are met, by a path with a switch. -/
example : ∃ st us t vs, Simulated swld scfg sbody st ∧ PathIn st us ∧ us.length = 2 ∧ Verif.Spec.Returned cfg (body okA okP) [] t ∧ PathIn t vs ∧
    List.Forall₂ (Contains Sum.inl Sum.inr swld ["a", "b"] ((3 : Nat) * 1)) us vs := by
  obtain ⟨st, us, g1, g2, g3, g4, g5⟩ := scase
  obtain ⟨t, h1, h2, h3, h4, h5, h6, h7, h8, h9, h10⟩ := ok_case
  obtain ⟨vs, v1, v2⟩ := C79_simulations_covered_partial Sum.inl Sum.inr Sum.inl_injective Sum.inr_injective meaning wld (body okA okP) swld sbody
    sameScenario flow 1 3 (by norm_num) simulatesFlow scfg st g1 (by decide +kernel) (fun k => ⟨rfl, rfl⟩) h3 (fun _ => 1) cfg t
    (by
      intro a ha rs hrs r hr
      simp only [body, List.mem_cons, List.not_mem_nil, or_false] at ha hrs
      rcases ha with rfl | rfl
      · cases hrs; rw [List.mem_singleton] at hr; subst hr; exact ⟨rfl, rfl⟩
      · cases hrs; rw [List.mem_singleton] at hr; subst hr; exact ⟨rfl, rfl⟩)
    h4 h5 (fun k => ⟨rfl, rfl, rfl⟩) rfl h6 h7 h1 h2 h8 us g2 g4 g5
    (by intro mh hm; cases hm; rw [g3]; decide)
  exact ⟨st, us, t, vs, g1, g2, g3, h1, v1, v2⟩

end BothEx

/-! #### two agents that switch at the same time -/

namespace TogEx

/-- `if ego.agent_mode == A and others[0].agent_mode == A and 1 <= ego.x and ego.x <= 5: output.agent_mode = B`, checked on rectangles -/
def chk (me o : String) (sd : Ver.StateDict ℚ String) : Except String (Bool × Bool) :=
  match sd.find? (fun x => decide (x.1 = me)), sd.find? (fun x => decide (x.1 = o)) with
  | some x, some y => if x.2.2.1 = ["A"] ∧ y.2.2.1 = ["A"] then VerEx.inInterval 1 5 x.2.1.box else .ok (false, false)
  | _, _ => .error "KeyError"

def vpath (me o : String) : Ver.Path (Ver.StateDict ℚ String) Unit ℚ String Unit :=
  { var := "agent_mode", prep := fun _ => .ok (some ()), check := fun _ s => chk me o s, cont := fun _ _ => .ok [], disc := fun _ => (), val := .const "B" }

def vlogic (me o : String) : Ver.Logic (Ver.StateDict ℚ String) Unit ℚ String Unit :=
  { nargs := 1, asserts := [], paths := [vpath me o], cont := ["x"], disc := ["agent_mode"], discType := ["AgentMode"] }

def vbody : Ver.Body (Ver.StateDict ℚ String) Unit ℚ String Unit :=
  { agents := [("a", vlogic "a" "b"), ("b", vlogic "b" "a")], mode := [("a", ["A"]), ("b", ["A"])], init := [("a", [([0], [0])]), ("b", [([0], [0])])],
    static := [("a", []), ("b", [])] }

/-- All agents move one unit per step in mode `A`. -/
def vspeed (m : List String) : ℚ := if m = ["A"] then 1 else 0

def vwld : Ver.World (Ver.StateDict ℚ String) ℚ String :=
  { sense := fun _ sd => sd, bloat := fun _ m c remain => ExecEx.drift (vspeed m) c remain.num.toNat, segLen := 1, mapH := fun t _ _ => t,
    unsafeContinue := false, round10 := id, sh := fun _ => [], rd := fun _ => none }

def vcfg : Engine.Cfg (Ver.Body (Ver.StateDict ℚ String) Unit ℚ String Unit) (Ver.Trace ℚ) Ver.Hits :=
  { kind := .ver, parallel := false, ahead := 1, maxHeight := some 4, horizon := 3, round10 := id, roundN := id, step := Ver.verStep vwld, noHits := .ok none }

/-- A state, as a rectangle. -/
def asBox (s : Ver.Spec.Snap ℚ String) : Ver.StateDict ℚ String := s.map (fun x => (x.1, ⟨0, 0, (x.2.1, x.2.1)⟩, x.2.2))

def vmeaning : Ver.Spec.Meaning (Ver.StateDict ℚ String) Unit ℚ String Unit :=
  { holds := fun p _ s => p.check () (asBox s) = .ok (true, true), vars := fun _ _ _ _ => none, disc := fun _ _ _ => (),
    pre := fun x _ s => x.pre (asBox s) = .ok (true, true), cond := fun x _ s => x.cond (asBox s) = .ok (true, true) }

def flow (_ : String) (m : List String) (ρ : Nat → List ℚ) : Prop := ∀ k, ρ k = (ρ 0).map (· + vspeed m * (k : ℚ))

/-- The same for the simulator. -/
def cond (me o : String) (sd : Sim.StateDict SVal) : Bool :=
  match sd.find? (fun x => decide (x.1 = me)), sd.find? (fun x => decide (x.1 = o)) with
  | some x, some y => decide (x.2.2.1 = [.inr "A"] ∧ y.2.2.1 = [.inr "A"]) && BothEx.inside? 1 5 x.2.1.state
  | _, _ => false

def slogic (me o : String) : Sim.Logic (Sim.StateDict SVal) SVal :=
  { nargs := 1, asserts := [], paths := [⟨"agent_mode", cond me o, fun _ => .inr "B"⟩], cont := ["x"], disc := ["agent_mode"], discType := ["AgentMode"] }

def sbody : Sim.Body (Sim.StateDict SVal) SVal :=
  { agents := [("a", slogic "a" "b"), ("b", slogic "b" "a")], mode := [("a", [.inr "A"]), ("b", [.inr "A"])],
    init := [("a", [.inl 0]), ("b", [.inl 0])], static := [("a", []), ("b", [])] }

def sspeed (m : List SVal) : ℚ := if m = [.inr "A"] then 1 else 0

def swld : Sim.World (Sim.StateDict SVal) SVal :=
  { sense := fun _ sd => sd, sim := fun _ m x remain => simDrift (sspeed m) x remain.num.toNat, mapH := fun t _ _ => t, unsafeContinue := false }

def scfg : Engine.Cfg (Sim.Body (Sim.StateDict SVal) SVal) (Sim.Trace SVal) Sim.Hits :=
  { kind := .sim, parallel := false, ahead := 1, maxHeight := some 4, horizon := 3, round10 := id, roundN := id, step := Sim.simStep swld, noHits := .ok none }

/-- In the simulation both agents are in mode `B` after one step. -/
theorem sroot_run : ((Sim.simulateOne swld ⟨0, 0, sbody, []⟩ 3).map (fun r => r.next.map (fun c => (c.start, c.body.mode)))).toOption =
    some [(1, [("a", [.inr "B"]), ("b", [.inr "B"])])] := by
  decide +kernel

abbrev Kid := ℚ × Dict String (List String) × Dict String (List (Rect.Box ℚ)) × Ver.Trace ℚ

/-- What is found at a node. -/
def kids (r : Engine.Result (Ver.Body (Ver.StateDict ℚ String) Unit ℚ String Unit) (Ver.Trace ℚ) (Option (Dict String (List String)))) :
    Option (Dict String (List String)) × List Kid := (r.hits, r.next.map (fun c => (c.start, c.body.mode, c.body.init, c.trace)))

theorem vroot_run : (Ver.verifyOne vwld ⟨0, 0, vbody, []⟩ 3).map kids = .ok (none,
    [(1, [("a", ["B"]), ("b", ["A"])], [("a", [([1], [1])]), ("b", [([1], [1])])], [("b", [VerEx.seg 1 1 1, VerEx.seg 2 2 2])]),
     (1, [("a", ["A"]), ("b", ["B"])], [("a", [([1], [1])]), ("b", [([1], [1])])], [("a", [VerEx.seg 1 1 1, VerEx.seg 2 2 2])])]) := by
  decide +kernel

abbrev Node := Engine.Work (Ver.Body (Ver.StateDict ℚ String) Unit ℚ String Unit) (Ver.Trace ℚ)

def root : Node := ⟨0, 0, vbody, []⟩
def kidA : Node := ⟨1, 1, { vbody with mode := [("a", ["B"]), ("b", ["A"])], init := [("a", [([1], [1])]), ("b", [([1], [1])])] },
  [("b", [VerEx.seg 1 1 1, VerEx.seg 2 2 2])]⟩
def kidB : Node := ⟨1, 1, { vbody with mode := [("a", ["A"]), ("b", ["B"])], init := [("a", [([1], [1])]), ("b", [([1], [1])])] },
  [("a", [VerEx.seg 1 1 1, VerEx.seg 2 2 2])]⟩

theorem kidA_run : (Ver.verifyOne vwld kidA 2).map kids = .ok (none, []) := by decide +kernel
theorem kidB_run : (Ver.verifyOne vwld kidB 2).map kids = .ok (none, []) := by decide +kernel

/-- The nodes of the verifier's tree. -/
theorem visited {n : Node} (h : Visited vwld vcfg vbody n) : n = root ∨ n = kidA ∨ n = kidB := by
  induction h with
  | root => exact .inl rfl
  | @child n c _ hc ih =>
    right
    have none_ : ∀ m : Node, m = kidA ∨ m = kidB → c ∉ (Ver.verStep vwld m (vcfg.round10 (vcfg.horizon - m.start))).next := by
      rintro m (rfl | rfl) hc
      · have e : vcfg.round10 (vcfg.horizon - kidA.start) = 2 := by decide +kernel
        rw [e] at hc
        obtain ⟨res, h1, h2⟩ := (map_ok_iff _ _ _).1 kidA_run
        simp only [kids, Prod.mk.injEq, List.map_eq_nil_iff] at h2
        simp only [Ver.verStep, h1, h2.2] at hc
        simp at hc
      · have e : vcfg.round10 (vcfg.horizon - kidB.start) = 2 := by decide +kernel
        rw [e] at hc
        obtain ⟨res, h1, h2⟩ := (map_ok_iff _ _ _).1 kidB_run
        simp only [kids, Prod.mk.injEq, List.map_eq_nil_iff] at h2
        simp only [Ver.verStep, h1, h2.2] at hc
        simp at hc
    rcases ih with rfl | ih
    · have e : vcfg.round10 (vcfg.horizon - root.start) = 3 := by decide +kernel
      rw [e] at hc
      obtain ⟨res, h1, h2⟩ := (map_ok_iff _ _ _).1 vroot_run
      have h1' : Ver.verifyOne vwld root 3 = .ok res := h1
      simp only [Ver.verStep, h1'] at hc
      obtain ⟨h6, h7⟩ := ExecEx.next_agents h1 c hc
      have h5 := List.mem_map_of_mem (f := fun c => (c.start, c.body.mode, c.body.init, c.trace)) hc
      rw [show List.map (fun c => (c.start, c.body.mode, c.body.init, c.trace)) res.next = _ from (Prod.ext_iff.1 h2).2] at h5
      obtain ⟨start, bd, tr⟩ := c
      obtain ⟨ags, md, ini, stt⟩ := bd
      simp only [List.mem_cons, List.not_mem_nil, or_false, Prod.mk.injEq] at h5 h6 h7
      rcases h5 with ⟨e1, e2, e3, e4⟩ | ⟨e1, e2, e3, e4⟩
      · left; subst e1 e2 e3 e4 h6 h7; rfl
      · right; subst e1 e2 e3 e4 h6 h7; rfl
    · exact absurd hc (none_ n ih)

theorem speed_eq (m : List String) : sspeed (m.map Sum.inr) = vspeed m := by
  have : (m.map Sum.inr = [(.inr "A" : SVal)]) ↔ m = ["A"] := by
    constructor
    · intro h
      match m, h with
      | [x], h => simpa using h
      | _ :: _ :: _, h => simp at h
    · rintro rfl; rfl
  unfold sspeed vspeed
  simp only [this]

theorem mode_iff (m : List String) : (m.map Sum.inr = [(.inr "A" : SVal)]) ↔ m = ["A"] := by
  constructor
  · intro h
    match m, h with
    | [x], h => simpa using h
    | _ :: _ :: _, h => simp at h
  · rintro rfl; rfl

theorem simulatesFlow : SimulatesFlow Sum.inl Sum.inr swld flow 1 3 := by
  intro a m x k
  refine ⟨fun j => x.map (· + vspeed m * (j : ℚ)), ?_, ?_, ?_, ?_⟩
  · intro k; simp
  · simp
  · intro j; simp
  · intro j row h
    simp only [swld, speed_eq] at h
    exact simDrift_flow _ _ _ _ _ h

theorem soundTubes (N : Nat) : SoundTubes vwld flow 1 N (fun _ => 1) := by
  have hlen : ∀ k : Nat, (((N - k : Nat) : ℚ) * 1).num.toNat = N - k := by
    intro k; rw [mul_one, Rat.num_natCast]; rfl
  refine ⟨?_, ?_, ?_, ?_⟩
  · intro a m c k _ _
    simp only [vwld, ExecEx.drift, hlen, List.length_map, List.length_range]
  · intro a m c k j s _ _ hs
    simp only [vwld, ExecEx.drift, hlen] at hs
    rw [List.getElem?_map] at hs
    obtain ⟨i, hi, rfl⟩ := Option.map_eq_some_iff.1 hs
    obtain ⟨hj, hij⟩ := List.getElem?_eq_some_iff.1 hi
    rw [List.getElem_range] at hij
    subst hij
    simp
  · intro a m c k h1 h2 s hs
    simp only [vwld, ExecEx.drift] at hs
    obtain ⟨i, -, rfl⟩ := List.mem_map.1 hs
    simp [h1, h2]
  · intro a m c k j s ρ hρ hin hs
    simp only [vwld, ExecEx.drift] at hs
    rw [List.getElem?_map] at hs
    obtain ⟨i, hi, rfl⟩ := Option.map_eq_some_iff.1 hs
    obtain ⟨hj, hij⟩ := List.getElem?_eq_some_iff.1 hi
    rw [List.getElem_range] at hij
    subst hij
    rw [hρ]
    constructor
    · dsimp only
      rw [List.forall₂_map_left_iff, List.forall₂_map_right_iff]
      exact hin.1.imp (fun a b h => by linarith)
    · dsimp only
      rw [List.forall₂_map_left_iff, List.forall₂_map_right_iff]
      exact hin.2.imp (fun a b h => by linarith)

theorem asBox_find (s : Ver.Spec.Snap ℚ String) (n : String) : (asBox s).find? (fun x => decide (x.1 = n)) =
    (s.find? (fun x => decide (x.1 = n))).map (fun x => (x.1, ⟨0, 0, (x.2.1, x.2.1)⟩, x.2.2)) := by
  induction s with
  | nil => rfl
  | cons x s ih =>
    unfold asBox at ih ⊢
    by_cases e : x.1 = n
    · rw [List.map_cons, List.find?_cons_of_pos (by simp [e]), List.find?_cons_of_pos (by simp [e])]; rfl
    · rw [List.map_cons, List.find?_cons_of_neg (by simp [e]), List.find?_cons_of_neg (by simp [e])]; exact ih

theorem holds_iff (me o : String) {snap : Ver.Spec.Snap ℚ String} {sd : Sim.StateDict SVal} (h : Same Sum.inl Sum.inr snap sd) :
    cond me o sd = true ↔ chk me o (asBox snap) = .ok (true, true) := by
  unfold cond chk
  rw [asBox_find, asBox_find]
  rcases same_find h me with ⟨e1, e2⟩ | ⟨x, y, e1, e2, e3, e3'⟩
  · rw [e1, e2]; simp
  · rcases same_find h o with ⟨f1, f2⟩ | ⟨x', y', f1, f2, f3, f3'⟩
    · rw [e1, e2, f1, f2]; simp
    · rw [e1, e2, f1, f2]
      simp only [Option.map_some, e3, e3', f3', mode_iff]
      by_cases hm : x.2.2.1 = ["A"] ∧ x'.2.2.1 = ["A"]
      · rw [if_pos hm]
        simp only [hm, and_self, decide_true, Bool.true_and]
        generalize x.2.1 = l
        match l with
        | [] => simp [BothEx.inside?, VerEx.inInterval]
        | [v] => simp [BothEx.inside?, VerEx.inInterval, and_comm]
        | _ :: _ :: _ => simp [BothEx.inside?, VerEx.inInterval]
      · rw [if_neg hm]
        simp [hm]

theorem sameScenario : SameScenario Sum.inl Sum.inr vmeaning vwld vbody swld sbody := by
  have hl : ∀ a me o, SameLogic Sum.inl Sum.inr vmeaning vwld swld a (vlogic me o) (slogic me o) := by
    intro a me o
    refine ⟨rfl, rfl, rfl, rfl, .cons ⟨rfl, ?_⟩ .nil⟩
    intro snap sd hs
    refine ⟨holds_iff me o hs, fun _ h => ?_, fun _ _ => ⟨"B", .const _, rfl⟩⟩
    simp only [vpath, vlogic] at h
    exact absurd h (by decide)
  refine ⟨.cons ⟨rfl, hl _ _ _⟩ (.cons ⟨rfl, hl _ _ _⟩ .nil), fun st sm dm => rfl, ?_, ?_, ?_⟩
  · intro a ha
    simp only [vbody, List.mem_cons, List.not_mem_nil, or_false] at ha
    rcases ha with rfl | rfl
    · exact ⟨[], rfl, rfl⟩
    · exact ⟨[], rfl, rfl⟩
  · intro a ha
    simp only [vbody, List.mem_cons, List.not_mem_nil, or_false] at ha
    rcases ha with rfl | rfl
    · exact ⟨["A"], rfl, rfl, rfl⟩
    · exact ⟨["A"], rfl, rfl, rfl⟩
  · intro a ha
    simp only [vbody, List.mem_cons, List.not_mem_nil, or_false] at ha
    rcases ha with rfl | rfl
    · exact ⟨[0], ([0], [0]), rfl, rfl, VerEx.inside1 _ _ _ (by norm_num) (by norm_num), rfl⟩
    · exact ⟨[0], ([0], [0]), rfl, rfl, VerEx.inside1 _ _ _ (by norm_num) (by norm_num), rfl⟩

theorem swf : Spec.Body.WF sbody := by
  refine ⟨by decide, ?_⟩
  intro a ha
  have : ∀ n p, Spec.Logic.WF (slogic n p) := by
    intro n p
    refine ⟨?_, ?_, ?_, ?_⟩ <;> simp only [slogic] <;> decide +kernel
  simp only [sbody, List.mem_cons, List.not_mem_nil, or_false] at ha
  rcases ha with rfl | rfl <;> exact this _ _

theorem within_find {snap : Ver.Spec.Snap ℚ String} {sd : Ver.StateDict ℚ String} (h : Ver.Spec.Within snap sd) (n : String) :
    (snap.find? (fun x => decide (x.1 = n)) = none ∧ sd.find? (fun x => decide (x.1 = n)) = none) ∨
    ∃ x y, snap.find? (fun x => decide (x.1 = n)) = some x ∧ sd.find? (fun x => decide (x.1 = n)) = some y ∧ Inside x.2.1 y.2.1.box ∧ x.2.2 = y.2.2 := by
  induction h with
  | nil => exact .inl ⟨rfl, rfl⟩
  | @cons x y _ _ hr _ ih =>
    obtain ⟨h1, h2, h3⟩ := hr
    by_cases e : x.1 = n
    · right
      refine ⟨x, y, ?_, ?_, h2, h3⟩
      · rw [List.find?_cons_of_pos (by simp [e])]
      · rw [List.find?_cons_of_pos (by simp [← h1, e])]
    · rw [List.find?_cons_of_neg (by simp [e]), List.find?_cons_of_neg (by simp [← h1, e])]
      exact ih

/-- The answers about the guards are right. -/
theorem faithful (tr : Ver.Trace ℚ) : Ver.Spec.Faithful vmeaning vwld vbody tr := by
  have ctl : ∀ {a dl p}, Ver.Spec.Controlled vbody a dl → p ∈ dl.paths → ∃ me o, p = vpath me o := by
    rintro a dl p ⟨h1, _⟩ hp
    simp only [vbody, List.mem_cons, Prod.mk.injEq, List.not_mem_nil, or_false] at h1
    rcases h1 with ⟨_, rfl⟩ | ⟨_, rfl⟩
    · simp only [vlogic, List.mem_singleton] at hp; exact ⟨_, _, hp⟩
    · simp only [vlogic, List.mem_singleton] at hp; exact ⟨_, _, hp⟩
  refine ⟨?_, ?_, ?_, fun _ _ _ _ _ _ _ _ _ _ => rfl⟩
  · intro a dl p sd0 i snap hc hm _ hprep
    obtain ⟨me, o, rfl⟩ := ctl hc hm
    cases hprep
  · rintro a p i r snap ⟨dl, sd0, sd, g, hc, hm, _, hsd, _, hr⟩ ⟨sd', hsd', hin⟩ hh
    obtain ⟨me, o, rfl⟩ := ctl hc hm
    rw [Proofs.Ver.boxes_det hsd' hsd] at hin
    have hh' : chk me o (asBox snap) = .ok (true, true) := hh
    have hr' : chk me o sd = .ok r := hr
    unfold chk at hh' hr'
    rw [asBox_find, asBox_find] at hh'
    rcases within_find hin me with ⟨e1, e2⟩ | ⟨x, y, e1, e2, e3, e4⟩
    · rw [e1] at hh'; simp at hh'
    · rcases within_find hin o with ⟨f1, f2⟩ | ⟨x', y', f1, f2, f3, f4⟩
      · rw [f1, e1] at hh'; simp at hh'
      · rw [e1, f1] at hh'
        rw [e2, f2] at hr'
        simp only [Option.map_some] at hh' hr'
        rw [e4, f4] at hh'
        by_cases hm : y.2.2.1 = ["A"] ∧ y'.2.2.1 = ["A"]
        · rw [if_pos hm] at hh' hr'
          have hw : Ver.Spec.Within [x] [(x.1, y.2)] := .cons ⟨rfl, e3, e4⟩ .nil
          have := (VerEx.inInterval_spec 1 5 x.1 [x] [(x.1, y.2)] hw r (by simpa [VerEx.sense] using hr')).1
          exact this (by simpa [VerEx.point] using hh')
        · rw [if_neg hm] at hh'
          simp at hh'
  · intro a dl p sd0 i sd g C snap hc hm _ _ _ hC _
    obtain ⟨me, o, rfl⟩ := ctl hc hm
    cases hC
    intro t
    rfl

end TogEx

open TogEx in
/-- **Violation of C79.** Two agents, whose guards require that both are in mode `A`, reach them at the same step. In the tree that `simulate`
returns, both switch, and there is a node in which both are in mode `B`. `verify` lets one agent switch at a time, after which the guard of the other
is false: in no node of its tree are both agents in mode `B`. The scenario is the same, the initial sets are single states, and nothing else is wrong. -/
theorem C79_together_violated : ∃ (st : SimTree (Sim.StateDict SVal) SVal)
    (t : Verif.Spec.RTree (Verif.Spec.Label (Ver.Body (Ver.StateDict ℚ String) Unit ℚ String Unit) (Ver.Trace ℚ) Ver.Hits)),
    SameScenario Sum.inl Sum.inr vmeaning vwld vbody swld sbody ∧ SimulatesFlow Sum.inl Sum.inr swld TogEx.flow 1 3 ∧
    SoundTubes vwld TogEx.flow 1 3 (fun _ => 1) ∧ (∀ tr, Ver.Spec.Faithful vmeaning vwld vbody tr) ∧
    Simulated swld TogEx.scfg TogEx.sbody st ∧ Verif.Spec.Returned vcfg vbody [] t ∧
    (∃ u k, Verif.Spec.RTree.Below st u k ∧ u.label.start = 1 ∧
      Dict.get? u.label.body.mode "a" = some [.inr "B"] ∧ Dict.get? u.label.body.mode "b" = some [.inr "B"]) ∧
    ∀ v k, Verif.Spec.RTree.Below t v k → v.label.hits = .ok none ∧
      ¬ (Dict.get? v.label.body.mode "a" = some ["B"] ∧ Dict.get? v.label.body.mode "b" = some ["B"]) := by
  obtain ⟨st, hst⟩ := exploration_returns TogEx.scfg (by decide) 4 rfl TogEx.sbody []
  obtain ⟨t, ht⟩ := exploration_returns vcfg (by decide) 4 rfl vbody []
  refine ⟨st, t, TogEx.sameScenario, TogEx.simulatesFlow, TogEx.soundTubes 3, TogEx.faithful, ⟨rfl, hst, TogEx.swf⟩, ht, ?_, ?_⟩
  · have hx := Engine.returned_explores hst
    obtain ⟨-, h1, h2, h3 | ⟨-, -, -, h3⟩⟩ := Engine.explores_node hx
    · refine absurd ⟨?_, ?_⟩ h3.1
      · intro m hm; cases hm; omega
      · show 0 < TogEx.scfg.round10 (TogEx.scfg.horizon - 0)
        decide +kernel
    have e3 : TogEx.scfg.round10 (TogEx.scfg.horizon - 0) = 3 := by decide +kernel
    have h3' : List.Forall₂ (fun (c : Engine.Child (Sim.Body (Sim.StateDict SVal) SVal) (Sim.Trace SVal)) t =>
        Verif.Spec.Explores _ (0 + 1) (TogEx.scfg.roundN c.start) c.body c.trace t)
      (Sim.simStep swld ⟨0, 0, TogEx.sbody, []⟩ (TogEx.scfg.round10 (TogEx.scfg.horizon - 0))).next st.kids := h3
    rw [e3] at h3'
    have hrun := TogEx.sroot_run
    unfold Sim.simStep at h3'
    cases ho : Sim.simulateOne swld ⟨0, 0, TogEx.sbody, []⟩ 3 with
    | error e => rw [ho] at hrun; cases hrun
    | ok r =>
      rw [ho] at hrun h3'
      simp only [Except.map, Except.toOption, Option.some.injEq] at hrun
      match hn : r.next, hrun with
      | [], r1 => simp at r1
      | _ :: _ :: _, r1 => simp at r1
      | [c], r1 =>
        simp only [hn] at h3'
        simp only [List.map_cons, List.map_nil, List.cons.injEq, Prod.mk.injEq, and_true] at r1
        obtain ⟨d, ks⟩ := st
        cases ks with
        | nil => cases h3'
        | cons u rest =>
          cases h3' with
          | cons hu _ =>
            obtain ⟨-, u1, u2, -⟩ := Engine.explores_node hu
            refine ⟨u, 1, .step (by simp) (.refl _), ?_, ?_, ?_⟩
            · rw [u1, r1.1]; rfl
            · rw [u2, r1.2]; decide +kernel
            · rw [u2, r1.2]; decide +kernel
  · intro v k hv
    have hx := Engine.returned_explores ht
    obtain ⟨st', b', tr', h1, h2⟩ := Engine.explores_below_inv (I := fun n => Visited vwld vcfg vbody n)
      (fun n _ hn c hc => .child hn hc) hv hx .root
    obtain ⟨-, -, e2, h3⟩ := Engine.explores_node h1
    constructor
    · rcases h3 with h3 | ⟨-, -, h3, -⟩
      · exact h3.2.2.2
      · rw [h3]
        have key : ∀ (m : Node) (r : ℚ) (l : List Kid), (Ver.verifyOne vwld m r).map kids = .ok (none, l) → vcfg.round10 (vcfg.horizon - m.start) = r →
            (Ver.verStep vwld m (vcfg.round10 (vcfg.horizon - m.start))).hits = .ok none := by
          intro m r l hm hr
          obtain ⟨res, g1, g2⟩ := (map_ok_iff _ _ _).1 hm
          rw [hr, Ver.verStep, g1]
          show Except.ok res.hits = _
          rw [show res.hits = none from (Prod.ext_iff.1 g2).1]
        rcases TogEx.visited h2 with e | e | e
        · rw [e]; exact key TogEx.root 3 _ vroot_run (by decide +kernel)
        · rw [e]; exact key kidA 2 _ kidA_run (by decide +kernel)
        · rw [e]; exact key kidB 2 _ kidB_run (by decide +kernel)
    · rw [e2]
      have hb {m m' : Node} (e : m = m') : m.body = m'.body := congrArg Engine.Work.body e
      rcases TogEx.visited h2 with e | e | e
      · rw [show b' = TogEx.root.body from hb e]; decide +kernel
      · rw [show b' = kidA.body from hb e]; decide +kernel
      · rw [show b' = kidB.body from hb e]; decide +kernel

end Verif.Props
