import Verif.Props.Sim

/-! # Witnesses and violations for C01–C05, C51 -/

set_option autoImplicit false

namespace Verif.Props
open Verif.Engine Verif.Spec Verif.Sim

/-! ### concrete scenarios: hypotheses are met, and the failures of the unrestricted claims -/

namespace SimWitness

/-- an agent senses its own state -/
def sense (a : String) (sd : StateDict Int) : List Int := ((sd.find? (fun x => decide (x.1 = a))).map (fun x => x.2.1.state)).getD []

/-- all agents move with unit speed; four samples -/
def sim (_ : String) (_ i : List Int) (_ : ℚ) : List (Row Int) := (List.range 4).map (fun (n : Nat) => ⟨(n : ℚ), i.map (fun x => x + (n : Int))⟩)

/-- a map that only allows changing to agent mode 2 while staying on track 0; agents without track mode are free -/
def mapH (st : Option Int) (_ dm : List Int) : Option Int :=
  match st with
  | none => none
  | some _ => if dm = [2] then some 0 else some 7

def world : World (List Int) Int := ⟨sense, sim, mapH, false⟩

def cfg : Cfg (Body (List Int) Int) (Trace Int) Hits :=
  { kind := .sim, parallel := false, ahead := 1, maxHeight := some 2, horizon := 4, round10 := id, roundN := id,
    step := simStep world, noHits := .ok none }

/-- guard `x ≥ n` -/
def ge (n : Int) (env : List Int) : Bool := decide (n ≤ env.headD 0)

def logic (asserts : List (Assertion (List Int))) (paths : List (Path (List Int) Int)) : Logic (List Int) Int :=
  ⟨1, asserts, paths, ["x"], ["agent_mode"], ["AgentMode"]⟩

/-- as `logic`, with a track mode -/
def logicT (paths : List (Path (List Int) Int)) : Logic (List Int) Int :=
  ⟨1, [], paths, ["x"], ["agent_mode", "track_mode"], ["AgentMode", "TrackMode"]⟩

theorem logic_wf (as ps) : Logic.WF (logic as ps) :=
  ⟨by simp [logic], by simp [logic], by simp only [logic]; decide +kernel, by simp only [logic]; decide +kernel⟩

theorem logicT_wf (ps) : Logic.WF (logicT ps) :=
  ⟨by simp [logicT], by simp [logicT], by simp only [logicT]; decide +kernel, by simp only [logicT]; decide +kernel⟩

/-- Two agents. `A` may switch to mode 1 or 2 once `x ≥ 2`; `B` never switches and asserts `x ≤ 100`. -/
def bodyAB : Body (List Int) Int :=
  { agents := [("A", logic [] [⟨"agent_mode", ge 2, fun _ => 1⟩, ⟨"agent_mode", ge 2, fun _ => 2⟩]),
               ("B", logic [⟨"small", fun _ => true, fun e => !ge 101 e⟩] [])]
    mode := [("A", [0]), ("B", [5])], init := [("A", [0]), ("B", [10])], static := [("A", []), ("B", [])] }

/-- one agent with the given controller -/
def body1 (dl : Logic (List Int) Int) (mode : List Int) : Body (List Int) Int :=
  { agents := [("A", dl)], mode := [("A", mode)], init := [("A", [0])], static := [("A", [])] }

theorem body1_wf {dl : Logic (List Int) Int} (h : Logic.WF dl) (m : List Int) : Body.WF (body1 dl m) :=
  ⟨by simp [body1], by intro a ha; simp [body1] at ha; subst ha; exact h⟩

theorem bodyAB_wf : Body.WF bodyAB := by
  refine ⟨by decide, ?_⟩
  intro a ha
  simp [bodyAB] at ha
  rcases ha with rfl | rfl <;> exact logic_wf _ _

/-- The root of the simulation of `body`. -/
theorem root (body : Body (List Int) Int) (wf : Body.WF body) : ∃ t : SimTree (List Int) Int, Simulated world cfg body t ∧
    Expanded cfg 0 t ∧ t.label.body = body ∧ t.label.start = 0 ∧
    t.label.trace = (simStep world ⟨0, 0, body, []⟩ 4).trace ∧
    t.label.hits = (simStep world ⟨0, 0, body, []⟩ 4).hits ∧
    t.kids.map (fun c => (c.label.start, c.label.body)) =
      (simStep world ⟨0, 0, body, []⟩ 4).next.map (fun c => (c.start, c.body)) := by
  obtain ⟨N, hN⟩ := C08_terminates cfg (by decide) 2 rfl body []
  obtain ⟨s, hs⟩ := hN (List.replicate N 0) (by simp)
  obtain ⟨g, hg, hx⟩ := C07_loop_computes_exploration cfg (by decide) body [] _ s hs
  have hret : Returned cfg body [] (g.map Label.ofRec) := ⟨by decide, _, s, g, hs, hg, rfl⟩
  obtain ⟨_, h2, h3, h4⟩ := explores_node hx
  have hexp : Expanded cfg 0 (g.map Label.ofRec) := by
    refine ⟨?_, ?_⟩
    · intro m hm; cases hm; omega
    · rw [h2]; decide +kernel
  refine ⟨_, ⟨rfl, hret, wf⟩, hexp, h3, h2, ?_⟩
  rcases h4 with ⟨h4, _⟩ | ⟨_, h5, h6, h7⟩
  · exact absurd ⟨hexp.1, by rw [← h2]; exact hexp.2⟩ h4
  · refine ⟨h5, h6, ?_⟩
    have : ∀ {l : List (Child (Body (List Int) Int) (Trace Int))} {k : List (SimTree (List Int) Int)} {P : Problem _ _ _} {h : Nat},
        P.round = id → List.Forall₂ (fun c t => Explores P h (P.round c.start) c.body c.trace t) l k →
        k.map (fun c => (c.label.start, c.label.body)) = l.map (fun c => (c.start, c.body)) := by
      intro l k P h hid hf
      induction hf with
      | nil => rfl
      | cons a _ ih =>
        obtain ⟨_, q1, q2, _⟩ := explores_node a
        rw [List.map_cons, List.map_cons, ih, q1, q2, hid]; rfl
    exact this rfl h7

end SimWitness

open SimWitness

/-- Hypotheses of C01, C02, C03, C05 are met by a simulation in which `A` switches non-deterministically at its third sample
while `B` stays: two children with modes 1 and 2 for `A`, `B` continuing at 12. -/
example : ∃ t, Simulated world cfg bodyAB t ∧ Expanded cfg 0 t ∧ t.label.hits = .ok none ∧
    t.kids.map (fun c => (c.label.start, c.label.body.mode, c.label.body.init)) =
      [(2, [("A", [1]), ("B", [5])], [("A", [2]), ("B", [12])]), (2, [("A", [2]), ("B", [5])], [("A", [2]), ("B", [12])])] := by
  obtain ⟨t, h1, h2, h3, h4, h5, h6, h7⟩ := root bodyAB bodyAB_wf
  refine ⟨t, h1, h2, h6.trans (by decide +kernel), ?_⟩
  have := congrArg (List.map (fun (p : ℚ × Body (List Int) Int) => (p.1, p.2.mode, p.2.init))) h7
  rw [List.map_map, List.map_map] at this
  refine Eq.trans this (by decide +kernel)

/-- The quiet case of C03: a controller whose guard never holds. -/
example : ∃ t, Simulated world cfg (body1 (logic [] [⟨"agent_mode", ge 50, fun _ => 1⟩]) [0]) t ∧ Expanded cfg 0 t ∧
    t.label.hits = .ok none ∧ t.kids.map (fun c => c.label.start) = [] := by
  obtain ⟨t, h1, h2, h3, h4, h5, h6, h7⟩ := root (body1 (logic [] [⟨"agent_mode", ge 50, fun _ => 1⟩]) [0]) (body1_wf (logic_wf _ _) _)
  refine ⟨t, h1, h2, h6.trans (by decide +kernel), ?_⟩
  have := congrArg (List.map (fun (p : ℚ × Body (List Int) Int) => p.1)) h7
  rw [List.map_map, List.map_map] at this
  exact Eq.trans this (by decide +kernel)

/-- Hypotheses of C04 are met with a hit: the assert `x < 2` fails at the third sample. -/
example : ∃ t, Simulated world cfg (body1 (logic [⟨"low", fun _ => true, fun e => !ge 2 e⟩] [⟨"agent_mode", ge 50, fun _ => 1⟩]) [0]) t ∧
    Expanded cfg 0 t ∧ t.label.hits = .ok (some [("A", ["low"])]) ∧
    t.label.trace = [("A", [⟨0, [0]⟩, ⟨1, [1]⟩])] := by
  obtain ⟨t, h1, h2, h3, h4, h5, h6, h7⟩ := root (body1 (logic [⟨"low", fun _ => true, fun e => !ge 2 e⟩]
    [⟨"agent_mode", ge 50, fun _ => 1⟩]) [0]) (body1_wf (logic_wf _ _) _)
  exact ⟨t, h1, h2, h6.trans (by decide +kernel), h5.trans (by decide +kernel)⟩

/-- **Violation of C04.** An agent with asserts but without any transition never has its asserts checked by `simulate`: the
assert fails at the first recorded sample, the simulation records no hit and keeps going. -/
theorem C04_assert_without_transition_violated :
    ∃ (body : Body (List Int) Int) (t : SimTree (List Int) Int), Simulated world cfg body t ∧ Expanded cfg 0 t ∧
      ¬ NoFailure true world t.label.body t.label.trace 0 ∧ t.label.hits = .ok none ∧
      ∃ rows, Dict.get? t.label.trace "A" = some rows ∧ rows.length = 4 := by
  obtain ⟨t, h1, h2, h3, h4, h5, h6, h7⟩ := root (body1 (logic [⟨"never", fun _ => true, fun _ => false⟩] []) [0])
    (body1_wf (logic_wf _ _) _)
  have htr : t.label.trace = [("A", [⟨0, [0]⟩, ⟨1, [1]⟩, ⟨2, [2]⟩, ⟨3, [3]⟩])] := h5.trans (by decide +kernel)
  refine ⟨_, t, h1, h2, ?_, h6.trans (by decide +kernel), ?_⟩
  · intro hn
    rw [h3, htr] at hn
    have := hn "A" (logic [⟨"never", fun _ => true, fun _ => false⟩] []) [0] ⟨by simp [body1], by decide +kernel⟩ (Or.inl rfl)
      ⟨[("A", ⟨0, [0]⟩, [0], [])], .cons ⟨rfl, ⟨_, rfl, rfl⟩, rfl, rfl⟩ .nil, by decide +kernel⟩
    simp [failing, logic] at this
  · rw [htr]; exact ⟨_, rfl, rfl⟩

/-- `A` may switch to mode 1 once `x ≥ 2`; `B` never switches and asserts `x ≤ 5`, which is false from the beginning. -/
def bodyAC : Body (List Int) Int :=
  { agents := [("A", logic [] [⟨"agent_mode", ge 2, fun _ => 1⟩]), ("B", logic [⟨"small", fun _ => true, fun e => !ge 6 e⟩] [])]
    mode := [("A", [0]), ("B", [5])], init := [("A", [0]), ("B", [10])], static := [("A", []), ("B", [])] }

theorem bodyAC_wf : Body.WF bodyAC := by
  refine ⟨by decide, ?_⟩
  intro a ha
  simp [bodyAC] at ha
  rcases ha with rfl | rfl <;> exact logic_wf _ _

/-- **Violation of C03.** The trace of a node is cut by the switch of one agent at its third sample, although an assertion of another agent, which
has no transitions, fails at the first one. -/
theorem C03_assert_violated :
    ∃ (body : Body (List Int) Int) (t : SimTree (List Int) Int), Simulated world cfg body t ∧ Expanded cfg 0 t ∧
      ¬ NoFailure true world t.label.body t.label.trace 0 ∧ t.label.hits = .ok none ∧ t.kids ≠ [] ∧
      ∃ rows, Dict.get? t.label.trace "A" = some rows ∧ rows.length = 3 := by
  obtain ⟨t, h1, h2, h3, h4, h5, h6, h7⟩ := root bodyAC bodyAC_wf
  have htr : t.label.trace = [("A", [⟨0, [0]⟩, ⟨1, [1]⟩, ⟨2, [2]⟩]), ("B", [⟨0, [10]⟩, ⟨1, [11]⟩, ⟨2, [12]⟩])] := h5.trans (by decide +kernel)
  refine ⟨_, t, h1, h2, ?_, h6.trans (by decide +kernel), ?_, ?_⟩
  · intro hn
    rw [h3, htr] at hn
    have := hn "B" (logic [⟨"small", fun _ => true, fun e => !ge 6 e⟩] []) [10] ⟨by simp [bodyAC], by decide +kernel⟩ (Or.inl rfl)
      ⟨[("A", ⟨0, [0]⟩, [0], []), ("B", ⟨0, [10]⟩, [5], [])],
        .cons ⟨rfl, ⟨_, rfl, rfl⟩, rfl, rfl⟩ (.cons ⟨rfl, ⟨_, rfl, rfl⟩, rfl, rfl⟩ .nil), by decide +kernel⟩
    revert this
    decide +kernel
  · intro h0
    rw [h0] at h7
    have := congrArg List.length h7
    rw [List.length_map, List.length_map] at this
    revert this
    decide +kernel
  · rw [htr]; exact ⟨_, rfl, rfl⟩

/-- **Violation of C05.** Two enabled resets of the same continuous variable that keep the mode: both outcomes are possible,
only the first is explored. -/
theorem C05_resets_dropped_violated :
    ∃ (body : Body (List Int) Int) (t : SimTree (List Int) Int), Simulated world cfg body t ∧ Expanded cfg 0 t ∧
      t.label.hits = .ok none ∧
      CanSwitch world t.label.body t.label.trace 0 "A" [0] [10] ∧ CanSwitch world t.label.body t.label.trace 0 "A" [0] [20] ∧
      t.kids.map (fun c => (c.label.body.mode, c.label.body.init)) = [([("A", [0])], [("A", [10])])] := by
  let p1 : Path (List Int) Int := ⟨"x", ge 0, fun _ => 10⟩
  let p2 : Path (List Int) Int := ⟨"x", ge 0, fun _ => 20⟩
  let dl := logic [] [p1, p2]
  obtain ⟨t, h1, h2, h3, h4, h5, h6, h7⟩ := root (body1 dl [0]) (body1_wf (logic_wf _ _) _)
  have htr : t.label.trace = [("A", [⟨0, [0]⟩])] := h5.trans (by decide +kernel)
  have hk := congrArg (List.map (fun (p : ℚ × Body (List Int) Int) => (p.2.mode, p.2.init))) h7
  rw [List.map_map, List.map_map] at hk
  have can : ∀ p : Path (List Int) Int, (p = p1 ∨ p = p2) →
      CanSwitch world (body1 dl [0]) [("A", [⟨0, [0]⟩])] 0 "A" [0] [p.val [0]] := by
    intro p hp
    have hT : "TrackMode" ∉ dl.discType := by show "TrackMode" ∉ ["AgentMode"]; decide
    refine ⟨dl, [0], [⟨0, [0]⟩], ⟨0, [0]⟩, [0], ⟨by simp [body1], by decide +kernel⟩,
      ⟨[("A", ⟨0, [0]⟩, [0], [])], .cons ⟨rfl, ⟨_, rfl, rfl⟩, rfl, rfl⟩ .nil, by decide +kernel⟩, rfl, rfl, rfl, ?_,
      ⟨[0], none, [0], none, .all hT, .none hT, .all hT, .none hT, Or.inl ⟨rfl, rfl⟩⟩⟩
    refine ⟨fun v => if v = "x" then some p else none, ?_, ?_, ⟨"x", rfl⟩, rfl, rfl, ?_, ?_⟩
    · intro v q hq
      dsimp only at hq
      split at hq
      · cases hq
        rename_i hv
        rcases hp with rfl | rfl
        · exact ⟨by simp [dl, logic], hv.symm, by decide +kernel⟩
        · exact ⟨by simp [dl, logic], hv.symm, by decide +kernel⟩
      · cases hq
    · intro q hq _
      simp [dl, logic] at hq
      rcases hq with rfl | rfl <;> rfl
    · rintro (_ | i)
      · rfl
      · rfl
    · rintro (_ | i)
      · rfl
      · rfl
  refine ⟨_, t, h1, h2, h6.trans (by decide +kernel), ?_, ?_, Eq.trans hk (by decide +kernel)⟩
  · rw [h3, htr]; exact can p1 (Or.inl rfl)
  · rw [h3, htr]; exact can p2 (Or.inr rfl)

/-- **C51: violation.** A transition that the map rejects ends the search for transitions: at sample 0 the only enabled
transition is rejected by the map; at sample 2 a permitted transition is enabled, but the node gets no child. -/
theorem C51_blocked_by_rejected_transition_violated :
    ∃ (body : Body (List Int) Int) (t : SimTree (List Int) Int), Simulated world cfg body t ∧ Expanded cfg 0 t ∧
      t.label.hits = .ok none ∧ (∃ rows, Dict.get? t.label.trace "A" = some rows ∧ rows.length = 4) ∧
      CanSwitch world t.label.body t.label.trace 2 "A" [2, 0] [2] ∧ t.kids.map (fun c => c.label.start) = [] := by
  let p1 : Path (List Int) Int := ⟨"agent_mode", fun e => !ge 1 e, fun _ => 1⟩
  let p2 : Path (List Int) Int := ⟨"agent_mode", ge 2, fun _ => 2⟩
  let dl := logicT [p1, p2]
  obtain ⟨t, h1, h2, h3, h4, h5, h6, h7⟩ := root (body1 dl [0, 0]) (body1_wf (logicT_wf _) _)
  have htr : t.label.trace = [("A", [⟨0, [0]⟩, ⟨1, [1]⟩, ⟨2, [2]⟩, ⟨3, [3]⟩])] := h5.trans (by decide +kernel)
  have hk := congrArg (List.map (fun (p : ℚ × Body (List Int) Int) => p.1)) h7
  rw [List.map_map, List.map_map] at hk
  refine ⟨_, t, h1, h2, h6.trans (by decide +kernel), ⟨_, by rw [htr]; rfl, rfl⟩, ?_, Eq.trans hk (by decide +kernel)⟩
  rw [h3, htr]
  have hT : TrackAt ["AgentMode", "TrackMode"] 1 := ⟨rfl, by intro j hj; obtain rfl : j = 0 := by omega
                                                             decide⟩
  refine ⟨dl, [2], _, ⟨2, [2]⟩, [0, 0], ⟨by simp [body1], by decide +kernel⟩,
      ⟨[("A", ⟨2, [2]⟩, [0, 0], [])], .cons ⟨rfl, ⟨_, rfl, rfl⟩, rfl, rfl⟩ .nil, by decide +kernel⟩, rfl, rfl, rfl, ?_,
      ⟨[0], some 0, [2], some 0, .first 1 0 0 hT (by decide) (by decide) (by simp) rfl, .some 1 0 hT rfl, .first 1 0 2 hT (by decide) (by decide) (by simp) rfl,
        .some 1 0 hT rfl, Or.inr (by decide +kernel)⟩⟩
  refine ⟨fun v => if v = "agent_mode" then some p2 else none, ?_, ?_, ⟨"agent_mode", rfl⟩, rfl, rfl, ?_, ?_⟩
  · intro v q hq
    dsimp only at hq
    split at hq
    · cases hq
      rename_i hv
      exact ⟨by simp [dl, logicT], hv.symm, by decide +kernel⟩
    · cases hq
  · intro q hq _
    simp [dl, logicT] at hq
    rcases hq with rfl | rfl <;> rfl
  · rintro (_ | _ | i)
    · rfl
    · rfl
    · rfl
  · rintro (_ | i)
    · rfl
    · rfl

end Verif.Props
