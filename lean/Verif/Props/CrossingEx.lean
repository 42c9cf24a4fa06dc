import Verif.Props.Crossing
import Verif.Props.AssembledEx

/-!
A scenario that meets the hypotheses of `C55_modes_partial` and `C80_modes_partial`.
-/

set_option autoImplicit false
set_option linter.unusedSectionVars false

namespace Verif.Props.CrossEx

open Verif.Spec Verif.Ver.Spec Verif.Asm Verif.Asm.Spec Verif.Proofs.Ver Verif.Proofs
open Verif.Grd (Fml Term Key Solver ZFml Iv Answer)
open Verif.Grd.Spec (Correct Complete evZ evF)
open AsmEx (Bdy V solver_right T df inA grd claims ctlB speed bloat flow drift_dims mapH seg ChildView View show_ inside1 flow1)

/-- `ego.agent_mode == B and ego.x >= 100` -/
def back : Fml ℚ := .and (.cons (.cmp .eq (.var (.attr "ego" "agent_mode")) (.lit (.str "B"))) (.cons (.cmp .ge (.var (.attr "ego" "x")) (.lit (.num 100))) .nil))

/-- `if ego.agent_mode == A and ego.x >= 3/2: output.agent_mode = B` and `if ego.agent_mode == B and ego.x >= 100: output.agent_mode = A` -/
def rules : List (Rule ℚ) := [⟨"agent_mode", grd, .const (.str "B")⟩, ⟨"agent_mode", back, .const (.str "A")⟩]

def ctlA : Controller ℚ :=
  { args := [⟨"ego", some "State"⟩, ⟨"others", some "State"⟩], defs := [("State", df)], rules := rules, claims := claims, cont := ["x"],
    disc := ["agent_mode"], discType := ["AgentMode"] }

/-- The agent `a` with this controller, and one without. -/
def sc : Scenario ℚ :=
  { agents := [("a", ctlA), ("b", ctlB)], mode := [("a", [.str "A"]), ("b", [.str "A"])], init := [("a", [([0], [1])]), ("b", [([5], [6])])],
    static := [("a", []), ("b", [])] }

def sig : String → Sig := fun _ => ⟨df, some ("others", df)⟩

theorem mem_agents {a : String} {c : Controller ℚ} (h : (a, c) ∈ sc.agents) : (a = "a" ∧ c = ctlA) ∨ (a = "b" ∧ c = ctlB) := by
  simpa [sc] using h

theorem ctl_args {a : String} {c : Controller ℚ} (h : (a, c) ∈ sc.agents) (hc : c.args ≠ []) : a = "a" ∧ c = ctlA := by
  rcases mem_agents h with h | ⟨_, rfl⟩
  · exact h
  · exact absurd rfl hc

theorem correct : Correct (ground T sc) T.solver := fun z bs _ => ⟨(solver_right z bs).1, (solver_right z bs).2.1⟩

theorem complete : Complete T.solver := fun z bs _ => (solver_right z bs).2.2

theorem good : GoodScenario sc sig := by
  refine ⟨by decide, ?_, ?_, ?_⟩
  · intro a c h hc
    obtain ⟨rfl, rfl⟩ := ctl_args h hc
    refine ⟨⟨"State", by decide +kernel, rfl⟩, by decide, ?_⟩
    refine ⟨by decide +kernel, by decide, "State", by decide +kernel, rfl⟩
  · intro a c h f hf i
    rcases mem_agents h with ⟨rfl, rfl⟩ | ⟨rfl, rfl⟩
    · simp only [formulas, ctlA, rules, claims, List.map_cons, List.map_nil, List.flatMap_cons, List.flatMap_nil, List.append_nil, List.cons_append,
        List.nil_append, List.mem_cons, List.not_mem_nil, or_false] at hf
      rcases hf with rfl | rfl | rfl | rfl | rfl | rfl <;> simp [grd, back, inA, Grd.keysF, Grd.keysFs, Grd.keysT]
    · simp [formulas, ctlB] at hf
  · intro a c h y hy
    rcases mem_agents h with ⟨rfl, rfl⟩ | ⟨rfl, rfl⟩
    · simp only [ctlA, claims, List.mem_cons, List.not_mem_nil, or_false] at hy
      rcases hy with rfl | rfl
      · exact AsmEx.inA_modeOnly
      · exact ⟨by decide, fun W ρ => by simp [Grd.Spec.asksF], fun k hk => by simp [Grd.keysF] at hk⟩
    · simp [ctlB] at hy

theorem shapes : Shapes sc sig (fun _ => 1) := by
  refine ⟨?_, ?_, ?_⟩
  · intro a c m h hc hm
    obtain ⟨rfl, rfl⟩ := ctl_args h hc
    cases hm
    rfl
  · intro a c m st h hc hm hs
    obtain ⟨rfl, rfl⟩ := ctl_args h hc
    cases hm
    cases hs
    exact ⟨rfl, rfl, rfl⟩
  · intro a c n df h hc he o c' m st ho hne hm hs
    obtain ⟨rfl, rfl⟩ := ctl_args h hc
    cases he
    rcases mem_agents ho with ⟨rfl, rfl⟩ | ⟨rfl, rfl⟩
    · exact absurd rfl hne
    · cases hm
      cases hs
      exact ⟨rfl, rfl, rfl⟩


noncomputable def wld : Ver.World (Sense ℚ) ℚ V := worldOf sc bloat 1 mapH id (fun _ => []) (fun _ => none)

theorem soundTubes (N : Nat) : SoundTubes wld flow 1 N (fun _ => 1) := by
  have hlen : ∀ k : Nat, (((N - k : Nat) : ℚ) * 1).num.toNat = N - k := by
    intro k; rw [mul_one, Rat.num_natCast]; rfl
  refine ⟨?_, ?_, ?_, ?_⟩
  · intro a m c k _ _
    simp only [wld, worldOf, bloat, ExecEx.drift, hlen, List.length_map, List.length_range]
  · intro a m c k j s _ _ hs
    simp only [wld, worldOf, bloat, ExecEx.drift, hlen] at hs
    rw [List.getElem?_map] at hs
    obtain ⟨i, hi, rfl⟩ := Option.map_eq_some_iff.1 hs
    obtain ⟨hj, hij⟩ := List.getElem?_eq_some_iff.1 hi
    rw [List.getElem_range] at hij
    subst hij
    simp
  · intro a m c k h1 h2 s hs
    exact drift_dims ⟨h1, h2⟩ s hs
  · intro a m c k j s ρ hρ hin hs
    simp only [wld, worldOf, bloat, ExecEx.drift] at hs
    rw [List.getElem?_map] at hs
    obtain ⟨i, hi, rfl⟩ := Option.map_eq_some_iff.1 hs
    obtain ⟨hj, hij⟩ := List.getElem?_eq_some_iff.1 hi
    rw [List.getElem_range] at hij
    subst hij
    rw [hρ]
    constructor
    · dsimp only
      rw [List.forall₂_map_left_iff, List.forall₂_map_right_iff]
      exact hin.1.imp (fun a b h => by linarith)
    · dsimp only
      rw [List.forall₂_map_left_iff, List.forall₂_map_right_iff]
      exact hin.2.imp (fun a b h => by linarith)

noncomputable def cfg : Engine.Cfg Bdy (Ver.Trace ℚ) Ver.Hits :=
  { kind := .ver, parallel := false, ahead := 1, maxHeight := some 4, horizon := 3, round10 := id, roundN := id, step := Ver.verStep wld, noHits := .ok none }

noncomputable def root : Engine.Work Bdy (Ver.Trace ℚ) := ⟨0, 0, bodyOf T sc, []⟩

noncomputable def child : Engine.Work Bdy (Ver.Trace ℚ) :=
  ⟨1, 1, { bodyOf T sc with mode := [("a", [.str "B"]), ("b", [.str "A"])], init := [("a", [([1], [2]), ([2], [3])]), ("b", [([5], [6])])] },
    [("b", [seg 1 5 6, seg 2 5 6])]⟩

def rootFull : Ver.Trace ℚ := [("a", [seg 0 0 1, seg 1 1 2, seg 2 2 3]), ("b", [seg 0 5 6, seg 1 5 6, seg 2 5 6])]
def childFull : Ver.Trace ℚ := [("b", [seg 1 5 6, seg 2 5 6]), ("a", [seg 1 1 2, seg 2 1 3])]

theorem of_show {n : Engine.Work Bdy (Ver.Trace ℚ)} {t : ℚ} {v : View} (h : (Ver.verifyOne wld n t).map show_ = .ok v) :
    ∃ res, Ver.verifyOne wld n t = .ok res ∧ res.hits = v.hits ∧ res.trace = v.tubes ∧
      ∀ c ∈ res.next, (⟨c.start, c.body.mode, c.body.init, c.trace⟩ : ChildView) ∈ v.next := by
  obtain ⟨res, h1, rfl⟩ := (map_ok_iff _ _ _).1 h
  exact ⟨res, h1, rfl, rfl, fun c hc => List.mem_map_of_mem (f := fun c => (⟨c.start, c.body.mode, c.body.init, c.trace⟩ : ChildView)) hc⟩

theorem root_run : (Ver.verifyOne wld root 3).map show_ = .ok ⟨none, [⟨1, child.body.mode, child.body.init, child.trace⟩], rootFull⟩ := by
  decide +kernel

theorem child_run : (Ver.verifyOne wld child 2).map show_ = .ok ⟨none, [], childFull⟩ := by
  decide +kernel

theorem root_fill : Ver.fillTubes wld root.body 0 3 [] = .ok rootFull := by decide +kernel
theorem child_fill : Ver.fillTubes wld child.body 1 2 child.trace = .ok childFull := by decide +kernel

/-- The nodes of this scenario. -/
theorem visited {n : Engine.Work Bdy (Ver.Trace ℚ)} (h : Visited wld cfg (bodyOf T sc) n) : n = root ∨ n = child := by
  induction h with
  | root => exact .inl rfl
  | @child n c _ hc ih =>
    right
    rcases ih with rfl | rfl
    · have e : cfg.round10 (cfg.horizon - root.start) = 3 := by decide +kernel
      rw [e] at hc
      obtain ⟨res, h1, _, _, h4⟩ := of_show root_run
      simp only [Ver.verStep, h1] at hc
      have h5 := h4 c hc
      obtain ⟨h6, h7⟩ := ExecEx.next_agents h1 c hc
      simp only [List.mem_singleton, ChildView.mk.injEq] at h5
      obtain ⟨e1, e2, e3, e4⟩ := h5
      obtain ⟨start, bd, tr⟩ := c
      obtain ⟨ags, md, ini, st⟩ := bd
      simp only at e1 e2 e3 e4 h6 h7
      subst e1 e2 e3 e4 h6 h7
      rfl
    · have e : cfg.round10 (cfg.horizon - child.start) = 2 := by decide +kernel
      rw [e] at hc
      obtain ⟨res, h1, _, _, h4⟩ := of_show child_run
      simp only [Ver.verStep, h1] at hc
      exact absurd (h4 c hc) (by simp)

theorem ctl {b' : Bdy} (hb : b'.agents = (bodyOf T sc).agents) {a : String} {dl : Ver.Logic (Sense ℚ) (Ready ℚ) ℚ V (Reads ℚ)} (h : Controlled b' a dl) :
    a = "a" ∧ dl = logicOf T ctlA := by
  obtain ⟨c, hc, ha, rfl⟩ := (Proofs.Asm.controlled_iff (T := T) hb).1 h
  obtain ⟨rfl, rfl⟩ := ctl_args hc ha
  exact ⟨rfl, rfl⟩

theorem ctlA_controlled {b' : Bdy} (hb : b'.agents = (bodyOf T sc).agents) : Controlled b' "a" (logicOf T ctlA) :=
  (Proofs.Asm.controlled_iff (T := T) hb).2 ⟨ctlA, by simp [sc], by simp [ctlA], rfl⟩

theorem mem_paths {p : Ver.Path (Sense ℚ) (Ready ℚ) ℚ V (Reads ℚ)} (h : p ∈ (logicOf T ctlA).paths) :
    p = pathOf T ⟨"agent_mode", grd, .const (.str "B")⟩ ∨ p = pathOf T ⟨"agent_mode", back, .const (.str "A")⟩ := by
  simpa [logicOf, ctlA, rules] using h

/-- The rectangles of the root at a step. -/
def rootSd (i : Nat) : Ver.StateDict ℚ V := [("a", seg i i (i + 1), [.str "A"], []), ("b", seg i 5 6, [.str "A"], [])]
/-- The rectangles of the child at a step. -/
def childSd (i : Nat) : Ver.StateDict ℚ V := [("a", seg (i + 1) 1 (i + 2), [.str "B"], []), ("b", seg (i + 1) 5 6, [.str "A"], [])]

set_option synthInstance.maxSize 4000 in
set_option synthInstance.maxHeartbeats 400000 in
theorem root_boxes {i : Nat} {sd : Ver.StateDict ℚ V} : Boxes root.body rootFull i sd ↔ i < 3 ∧ sd = rootSd i := by
  rw [← stateDict_ok_iff]
  match i with
  | 0 =>
    have h : Ver.stateDict root.body rootFull 0 = .ok (rootSd 0) := by decide +kernel
    rw [h]; simp [eq_comm]
  | 1 =>
    have h : Ver.stateDict root.body rootFull 1 = .ok (rootSd 1) := by decide +kernel
    rw [h]; simp [eq_comm]
  | 2 =>
    have h : Ver.stateDict root.body rootFull 2 = .ok (rootSd 2) := by decide +kernel
    rw [h]; simp [eq_comm]
  | i + 3 =>
    refine ⟨fun h => ?_, fun h => absurd h.1 (by omega)⟩
    cases (stateDict_ok_iff _ _ _ _).1 h with
    | cons h1 _ =>
      obtain ⟨-, ⟨segs, h2, h3⟩, -⟩ := h1
      have h4 : segs = [seg 0 0 1, seg 1 1 2, seg 2 2 3] := (Option.some.inj h2).symm
      subst h4
      simp at h3

set_option synthInstance.maxSize 4000 in
set_option synthInstance.maxHeartbeats 400000 in
theorem child_boxes {i : Nat} {sd : Ver.StateDict ℚ V} : Boxes child.body childFull i sd ↔ i < 2 ∧ sd = childSd i := by
  rw [← stateDict_ok_iff]
  match i with
  | 0 =>
    have h : Ver.stateDict child.body childFull 0 = .ok (childSd 0) := by decide +kernel
    rw [h]; simp [eq_comm]
  | 1 =>
    have h : Ver.stateDict child.body childFull 1 = .ok (childSd 1) := by decide +kernel
    rw [h]; simp [eq_comm]
  | i + 2 =>
    refine ⟨fun h => ?_, fun h => absurd h.1 (by omega)⟩
    cases (stateDict_ok_iff _ _ _ _).1 h with
    | cons h1 _ =>
      obtain ⟨-, ⟨segs, h2, h3⟩, -⟩ := h1
      have h4 : segs = [seg 1 1 2, seg 2 1 3] := by
        have : Dict.get? childFull "a" = some [seg 1 1 2, seg 2 1 3] := by decide +kernel
        exact Option.some.inj (h2.symm.trans this)
      subst h4
      simp at h3

/-- The answer for a guard: at a step of a node. -/
noncomputable def ask (f : Fml ℚ) (sd0 sd : Ver.StateDict ℚ V) : Except String (Option (Bool × Bool)) :=
  (prepare T f (senseIn sc "a" sd0)).bind fun o => match o with
    | none => .ok none
    | some g => (evaluate T g (senseIn sc "a" sd)).map some

theorem ask0 : ask grd (rootSd 0) (rootSd 0) = .ok (some (false, false)) := by decide +kernel
theorem ask1 : ask grd (rootSd 0) (rootSd 1) = .ok (some (true, false)) := by decide +kernel
theorem ask2 : ask grd (rootSd 0) (rootSd 2) = .ok (some (true, true)) := by decide +kernel
theorem askc0 : ask back (childSd 0) (childSd 0) = .ok (some (false, false)) := by decide +kernel
theorem askc1 : ask back (childSd 0) (childSd 1) = .ok (some (false, false)) := by decide +kernel

theorem never {f : Fml ℚ} {sd0 : Ver.StateDict ℚ V} (h : (prepare T f (senseIn sc "a" sd0)).map Option.isSome = .ok false) (sd : Ver.StateDict ℚ V) :
    ask f sd0 sd = .ok none := by
  obtain ⟨o, h1, h2⟩ := (map_ok_iff _ _ _).1 h
  cases o with
  | none => unfold ask; rw [h1]; rfl
  | some g => cases h2

theorem askb (i : Nat) : ask back (rootSd 0) (rootSd i) = .ok none := never (by decide +kernel) _
theorem askc (i : Nat) : ask grd (childSd 0) (childSd i) = .ok none := never (by decide +kernel) _

theorem ask_some {f : Fml ℚ} {sd0 sd : Ver.StateDict ℚ V} {r : Bool × Bool} (h : ask f sd0 sd = .ok (some r)) :
    ∃ g, prepare T f (senseIn sc "a" sd0) = .ok (some g) ∧ evaluate T g (senseIn sc "a" sd) = .ok r := by
  obtain ⟨o, h1, h2⟩ := (bind_ok_iff _ _ _).1 h
  cases o with
  | none => cases h2
  | some g =>
    obtain ⟨x, h3, h4⟩ := (map_ok_iff _ _ _).1 h2
    cases h4
    exact ⟨g, h1, h3⟩

theorem ask_of {sd0 sd : Ver.StateDict ℚ V} {r : Bool × Bool} {f : Fml ℚ} {g : Ready ℚ} (h1 : prepare T f (senseIn sc "a" sd0) = .ok (some g))
    (h2 : evaluate T g (senseIn sc "a" sd) = .ok r) : ask f sd0 sd = .ok (some r) := by
  unfold ask
  rw [h1]
  show (evaluate T g (senseIn sc "a" sd)).map some = _
  rw [h2]
  rfl

theorem root_asked {i : Nat} {a : String} {p : Ver.Path (Sense ℚ) (Ready ℚ) ℚ V (Reads ℚ)} {r : Bool × Bool} (h : Asked wld root.body rootFull i a p r) :
    a = "a" ∧ p = pathOf T ⟨"agent_mode", grd, .const (.str "B")⟩ ∧
      ((i = 0 ∧ r = (false, false)) ∨ (i = 1 ∧ r = (true, false)) ∨ (i = 2 ∧ r = (true, true))) := by
  obtain ⟨dl, sd0, sd, g, hc, hp, h0, h1, h2, h3⟩ := h
  obtain ⟨rfl, rfl⟩ := ctl rfl hc
  obtain ⟨-, rfl⟩ := root_boxes.1 h0
  obtain ⟨hi, rfl⟩ := root_boxes.1 h1
  rcases mem_paths hp with rfl | rfl
  · have h4 := ask_of (f := grd) (sd0 := rootSd 0) (sd := rootSd i) (r := r) (g := g) h2 h3
    refine ⟨rfl, rfl, ?_⟩
    rcases (by omega : i = 0 ∨ i = 1 ∨ i = 2) with rfl | rfl | rfl
    · rw [ask0] at h4; cases h4; exact .inl ⟨rfl, rfl⟩
    · rw [ask1] at h4; cases h4; exact .inr (.inl ⟨rfl, rfl⟩)
    · rw [ask2] at h4; cases h4; exact .inr (.inr ⟨rfl, rfl⟩)
  · have h4 := ask_of (f := back) (sd0 := rootSd 0) (sd := rootSd i) (r := r) (g := g) h2 h3
    rw [askb] at h4
    cases h4

theorem child_asked {i : Nat} {a : String} {p : Ver.Path (Sense ℚ) (Ready ℚ) ℚ V (Reads ℚ)} {r : Bool × Bool} (h : Asked wld child.body childFull i a p r) :
    r = (false, false) := by
  obtain ⟨dl, sd0, sd, g, hc, hp, h0, h1, h2, h3⟩ := h
  obtain ⟨rfl, rfl⟩ := ctl (b' := child.body) rfl hc
  obtain ⟨-, rfl⟩ := child_boxes.1 h0
  obtain ⟨hi, rfl⟩ := child_boxes.1 h1
  rcases mem_paths hp with rfl | rfl
  · have h4 := ask_of (f := grd) (sd0 := childSd 0) (sd := childSd i) (r := r) (g := g) h2 h3
    rw [askc] at h4
    cases h4
  · have h4 := ask_of (f := back) (sd0 := childSd 0) (sd := childSd i) (r := r) (g := g) h2 h3
    rcases (by omega : i = 0 ∨ i = 1) with rfl | rfl
    · rw [askc0] at h4; cases h4; rfl
    · rw [askc1] at h4; cases h4; rfl

theorem root_hit {i : Nat} {r : Bool × Bool} (hi : i < 3) (h : ask grd (rootSd 0) (rootSd i) = .ok (some r)) :
    Asked wld root.body rootFull i "a" (pathOf T ⟨"agent_mode", grd, .const (.str "B")⟩) r := by
  obtain ⟨g, h1, h2⟩ := ask_some h
  exact ⟨logicOf T ctlA, rootSd 0, rootSd i, g, ctlA_controlled rfl, by simp [logicOf, ctlA, rules], root_boxes.2 ⟨by omega, rfl⟩, root_boxes.2 ⟨hi, rfl⟩, h1, h2⟩

theorem holds_iff {p : Ver.Path (Sense ℚ) (Ready ℚ) ℚ V (Reads ℚ)} {r : Rule ℚ} (h : pathOf T r = p) (s : Snap ℚ V)
    (hp : r ∈ ctlA.rules) (h' : TrueFor T sc sig "a" s r.guard) : (meaningOf T sc sig).holds p "a" s :=
  ⟨ctlA, r, by simp [sc], hp, h.symm, h'⟩

/-- A rule that applies: its guard is one of the two. -/
theorem holds_only {p : Ver.Path (Sense ℚ) (Ready ℚ) ℚ V (Reads ℚ)} {s : Snap ℚ V} (h : (meaningOf T sc sig).holds p "a" s) :
    (p = pathOf T ⟨"agent_mode", grd, .const (.str "B")⟩ ∧ TrueFor T sc sig "a" s grd) ∨
      (p = pathOf T ⟨"agent_mode", back, .const (.str "A")⟩ ∧ TrueFor T sc sig "a" s back) := by
  obtain ⟨c, r, hc, hr, h1, ht⟩ := h
  rcases mem_agents hc with ⟨-, rfl⟩ | ⟨h, -⟩
  · simp only [ctlA, rules, List.mem_cons, List.not_mem_nil, or_false] at hr
    rcases hr with rfl | rfl
    · exact .inl ⟨h1, ht⟩
    · exact .inr ⟨h1, ht⟩
  · exact absurd h (by decide)

/-- The two rules lead to different modes. -/
theorem apart {b' : Bdy} (hb : b'.agents = (bodyOf T sc).agents) (tr : Ver.Trace ℚ) (i : Nat) (a : String)
    (dl : Ver.Logic (Sense ℚ) (Ready ℚ) ℚ V (Reads ℚ)) (hc : Controlled b' a dl) :
    dl.paths.Pairwise (fun p q => HitAt wld b' tr i a p → HitAt wld b' tr i a q → ∀ y, Sets p y → ¬ Sets q y) := by
  obtain ⟨rfl, rfl⟩ := ctl hb hc
  simp only [logicOf, ctlA, rules, List.map_cons, List.map_nil, List.pairwise_cons, List.mem_singleton, forall_eq, List.not_mem_nil, false_imp_iff, implies_true,
    List.Pairwise.nil, and_true]
  intro _ _ y h1 h2
  have e1 : y = .str "B" := by
    rcases h1 with h | h
    · exact (Rst.Val.const.inj h).symm
    · cases h
  have e2 : y = .str "A" := by
    rcases h2 with h | h
    · exact (Rst.Val.const.inj h).symm
    · cases h
  rw [e1] at e2
  exact absurd e2 (by decide)

theorem root_crossed : Crossed wld root rootFull := by
  refine ⟨?_, apart rfl _, ?_⟩
  · rintro j k a p hjk ⟨c, h⟩ _ hk
    obtain ⟨rfl, rfl, -⟩ := root_asked h
    have hk3 : k < 3 := hk ("a", [seg 0 0 1, seg 1 1 2, seg 2 2 3]) (by simp [rootFull])
    rcases (by omega : k = 1 ∨ k = 2) with rfl | rfl
    · exact ⟨false, root_hit (by omega) ask1⟩
    · exact ⟨true, root_hit (by omega) ask2⟩
  · rintro j a p ⟨c, h⟩ o ho _ rs hrs
    rcases (root_asked h).2.2 with ⟨-, h⟩ | ⟨-, h⟩ | ⟨rfl, -⟩
    · cases h
    · cases h
    · obtain ⟨o', ho', rfl⟩ := List.mem_map.1 ho
      rcases mem_agents (a := o'.1) (c := o'.2) ho' with ⟨h1, -⟩ | ⟨h1, -⟩
      · rw [h1] at hrs; cases hrs; decide
      · rw [h1] at hrs; cases hrs; decide

theorem child_crossed : Crossed wld child childFull := by
  refine ⟨?_, apart (b' := child.body) rfl _, ?_⟩
  · rintro j k a p _ ⟨c, h⟩
    cases child_asked h
  · rintro j a p ⟨c, h⟩
    cases child_asked h

theorem modesOnly : ModesOnly sc := by
  refine ⟨?_, ?_, ?_, ?_⟩
  · intro a c h hc
    obtain ⟨rfl, rfl⟩ := ctl_args h hc
    exact ⟨"agent_mode", rfl⟩
  · intro a c h hc
    obtain ⟨rfl, rfl⟩ := ctl_args h hc
    simp [ctlA]
  · intro a c h hc r hr
    obtain ⟨rfl, rfl⟩ := ctl_args h hc
    simp only [ctlA, rules, List.mem_cons, List.not_mem_nil, or_false] at hr
    rcases hr with rfl | rfl
    · exact ⟨by simp [ctlA], _, .inl rfl⟩
    · exact ⟨by simp [ctlA], _, .inl rfl⟩
  · intro a c hc f hf
    rcases mem_agents hc with ⟨rfl, rfl⟩ | ⟨rfl, rfl⟩
    · simp only [formulas, ctlA, rules, claims, List.map_cons, List.map_nil, List.flatMap_cons, List.flatMap_nil, List.append_nil, List.cons_append,
        List.nil_append, List.mem_cons, List.not_mem_nil, or_false] at hf
      rcases hf with rfl | rfl | rfl | rfl | rfl | rfl <;> rfl
    · simp [formulas, ctlB] at hf

/-- `verify` returns a tree. -/
theorem returned : ∃ t, Returned cfg (bodyOf T sc) [] t := by
  obtain ⟨N, hN⟩ := C08_terminates cfg (by decide) 4 rfl (bodyOf T sc) []
  obtain ⟨s, hs⟩ := hN (List.replicate N 0) (by simp)
  obtain ⟨g, hg, _⟩ := C07_loop_computes_exploration cfg (by decide) (bodyOf T sc) [] _ s hs
  exact ⟨g.map Label.ofRec, by decide, _, s, g, hs, hg, rfl⟩

/-- `x` is 1/4, 5/4, 9/4; then the agent switches, and `x` stays 9/4. -/
def ex1 : Phase ℚ V := ⟨fun _ => [.str "A"], fun a k => if a = "a" then [1/4 + (k : ℚ)] else [11/2]⟩
def ex2 : Phase ℚ V := ⟨fun a => if a = "a" then [.str "B"] else [.str "A"], fun a _ => if a = "a" then [9/4] else [11/2]⟩

/-- When the guard is true. -/
theorem guard_iff (x y : ℚ) (m m' : V) : TrueFor T sc sig "a" [("a", [x], [m], []), ("b", [y], [m'], [])] grd ↔ m = .str "A" ∧ 3/2 ≤ x := by
  have h1 : view (sig "a") "a" [("a", [x], [m], []), ("b", [y], [m'], [])] (.attr "ego" "agent_mode") = m := rfl
  have h2 : view (sig "a") "a" [("a", [x], [m], []), ("b", [y], [m'], [])] (.attr "ego" "x") = .num x := rfl
  simp only [TrueFor, grd, inA, Grd.Spec.evF, Grd.Spec.evAll, Grd.Spec.evT, Grd.Spec.look, h1, h2, Grd.Spec.holds, and_true]

theorem snap_eq (φ : Phase ℚ V) (k : Nat) : φ.snap (bodyOf T sc) k = [("a", φ.path "a" k, φ.mode "a", []), ("b", φ.path "b" k, φ.mode "b", [])] := rfl

theorem wf : Ver.Spec.Body.WF (bodyOf T sc) := by
  refine ⟨by simp [bodyOf, sc], ?_⟩
  intro x hx
  simp only [bodyOf, sc, List.map_cons, List.map_nil, List.mem_cons, List.not_mem_nil, or_false] at hx
  rcases hx with rfl | rfl
  · exact ⟨by simp [logicOf, ctlA], by simp [logicOf, ctlA], by simp only [logicOf, ctlA, List.mem_singleton, forall_eq]; decide +kernel,
      by simp only [logicOf, ctlA, List.mem_singleton, forall_eq]; decide +kernel⟩
  · exact ⟨by simp [logicOf, ctlB], by simp [logicOf, ctlB], by simp only [logicOf, ctlB, List.mem_singleton, forall_eq]; decide +kernel,
      by simp only [logicOf, ctlB, List.mem_singleton, forall_eq]; decide +kernel⟩


theorem back_iff (x y : ℚ) (m m' : V) : TrueFor T sc sig "a" [("a", [x], [m], []), ("b", [y], [m'], [])] back ↔ m = .str "B" ∧ 100 ≤ x := by
  have h1 : view (sig "a") "a" [("a", [x], [m], []), ("b", [y], [m'], [])] (.attr "ego" "agent_mode") = m := rfl
  have h2 : view (sig "a") "a" [("a", [x], [m], []), ("b", [y], [m'], [])] (.attr "ego" "x") = .num x := rfl
  simp only [TrueFor, back, Grd.Spec.evF, Grd.Spec.evAll, Grd.Spec.evT, Grd.Spec.look, h1, h2, Grd.Spec.holds, and_true]

theorem path1 (k : Nat) : ex1.path "a" k = [1/4 + (k : ℚ)] := by simp [ex1, ex2]
theorem path1b (k : Nat) : ex1.path "b" k = [11/2] := by simp [ex1, ex2]
theorem path2 (k : Nat) : ex2.path "a" k = [9/4] := by simp [ex1, ex2]
theorem path2b (k : Nat) : ex2.path "b" k = [11/2] := by simp [ex1, ex2]

theorem execution : Execution (meaningOf T sc sig) wld (bodyOf T sc) flow [(ex1, 2), (ex2, 1)] := by
  have hq1 : Quiet (meaningOf T sc sig) (bodyOf T sc) ex1 2 := by
    intro k a dl p hk hc hp hh
    obtain ⟨rfl, rfl⟩ := ctl rfl hc
    rcases holds_only hh with ⟨-, hh⟩ | ⟨-, hh⟩
    · rw [snap_eq, path1, path1b] at hh
      have h := ((guard_iff _ _ _ _).1 hh).2
      rcases (by omega : k = 0 ∨ k = 1) with rfl | rfl <;> norm_num at h
    · rw [snap_eq, path1, path1b] at hh
      exact absurd ((back_iff _ _ _ _).1 hh).1 (by decide)
  have hq2 : Quiet (meaningOf T sc sig) (bodyOf T sc) ex2 1 := by
    intro k a dl p hk hc hp hh
    obtain ⟨rfl, rfl⟩ := ctl rfl hc
    rcases holds_only hh with ⟨-, hh⟩ | ⟨-, hh⟩
    · rw [snap_eq, path2, path2b] at hh
      exact absurd ((guard_iff _ _ _ _).1 hh).1 (by decide)
    · rw [snap_eq, path2, path2b] at hh
      have h := ((back_iff _ _ _ _).1 hh).2
      norm_num at h
  have hh : (meaningOf T sc sig).holds (pathOf T ⟨"agent_mode", grd, .const (.str "B")⟩) "a" (ex1.snap (bodyOf T sc) 2) := by
    refine holds_iff rfl _ (by simp [ctlA, rules]) ?_
    rw [snap_eq, path1, path1b]
    exact (guard_iff _ _ _ _).2 ⟨rfl, by norm_num⟩
  refine .switch hq1 ⟨"a", logicOf T ctlA, ?_, ?_, ?_⟩ (.last hq2)
  · refine ⟨[1/4 + ((2 : Nat) : ℚ)], [.str "A"], [], ctlA_controlled rfl, ?_, rfl, rfl,
      ⟨fun v => if v = "agent_mode" then some (pathOf T ⟨"agent_mode", grd, .const (.str "B")⟩) else none, ?_, ?_, ⟨"agent_mode", by decide⟩, rfl, rfl, ?_, ?_⟩,
        ⟨[.str "A"], none, [.str "B"], none, .all noTrack, .none noTrack, .all noTrack, .none noTrack, .inr rfl⟩⟩
    · rw [snap_eq, path1]
      exact List.mem_cons_self ..
    · intro v p hv
      dsimp only at hv
      by_cases e : v = "agent_mode"
      · rw [if_pos e] at hv
        cases hv
        exact ⟨by simp [logicOf, ctlA, rules], e.symm, hh⟩
      · rw [if_neg e] at hv; cases hv
    · intro p hp _
      rcases mem_paths hp with rfl | rfl <;> rfl
    · intro i v z hv hz
      match i with
      | 0 =>
        simp only [logicOf, ctlA, List.getElem?_cons_zero, Option.some.injEq] at hv
        subst hv
        have : z = .str "B" := by simpa [ex2] using hz.symm
        subst this
        exact .const _
      | i + 1 => simp [logicOf, ctlA] at hv
    · intro i v hv
      match i with
      | 0 =>
        simp only [logicOf, ctlA, List.getElem?_cons_zero, Option.some.injEq] at hv
        subst hv
        rw [path2]
        show some (9/4 : ℚ) = some (1/4 + ((2 : Nat) : ℚ))
        norm_num
      | i + 1 => simp [logicOf, ctlA] at hv
  · intro k
    have : speed "a" [.str "B"] = 0 := by decide +kernel
    simp [this, ex2]
  · intro o ho
    exact ⟨by simp [ex2, ex1, ho], fun k => by simp [ex2, ex1, ho]⟩

theorem starts : Starts (bodyOf T sc) flow ex1 := by
  intro a ha
  obtain ⟨a', ha', rfl⟩ := List.mem_map.1 ha
  rcases mem_agents (a := a'.1) (c := a'.2) ha' with ⟨h1, -⟩ | ⟨h1, -⟩
  · dsimp only
    rw [h1]
    exact ⟨rfl, rfl, flow1 (1/4) "a", ([0], [1]), rfl, by rw [path1]; exact inside1 _ _ _ (by norm_num) (by norm_num)⟩
  · dsimp only
    rw [h1]
    exact ⟨rfl, rfl, flow1 (1/4) "b", ([5], [6]), rfl, by rw [path1b]; exact inside1 _ _ _ (by norm_num) (by norm_num)⟩

theorem safe {t : RTree (Label Bdy (Ver.Trace ℚ) Ver.Hits)} (ht : Returned cfg (bodyOf T sc) [] t) : ∀ u k, RTree.Below t u k → u.label.hits = .ok none := by
  intro u k hu
  have hx := Engine.returned_explores ht
  obtain ⟨st', b', tr', h1, h2⟩ := Engine.explores_below_inv (I := fun n => Visited wld cfg (bodyOf T sc) n)
    (fun n _ hn c hc => .child hn hc) hu hx .root
  obtain ⟨-, -, -, h3 | ⟨-, -, h3, -⟩⟩ := Engine.explores_node h1
  · exact h3.2.2.2
  · rw [h3]
    rcases visited h2 with e | e
    · rw [e]
      obtain ⟨res, r1, r2, -⟩ := of_show root_run
      have e3 : cfg.round10 (cfg.horizon - root.start) = 3 := by decide +kernel
      show (Ver.verStep wld root (cfg.round10 (cfg.horizon - root.start))).hits = _
      rw [e3, Ver.verStep, r1]
      show Except.ok res.hits = _
      rw [r2]
    · rw [e]
      obtain ⟨res, r1, r2, -⟩ := of_show child_run
      have e3 : cfg.round10 (cfg.horizon - child.start) = 2 := by decide +kernel
      show (Ver.verStep wld child (cfg.round10 (cfg.horizon - child.start))).hits = _
      rw [e3, Ver.verStep, r1]
      show Except.ok res.hits = _
      rw [r2]

theorem nodes_ok (n : Engine.Work Bdy (Ver.Trace ℚ)) (full : Ver.Trace ℚ) (hn : Visited wld cfg (bodyOf T sc) n)
    (hf : Ver.fillTubes wld n.body n.start (cfg.round10 (cfg.horizon - n.start)) n.trace = .ok full) : Crossed wld n full := by
  rcases visited hn with rfl | rfl
  · have e3 : cfg.round10 (cfg.horizon - root.start) = 3 := by decide +kernel
    rw [e3] at hf
    have := root_fill.symm.trans hf
    cases this
    exact root_crossed
  · have e3 : cfg.round10 (cfg.horizon - child.start) = 2 := by decide +kernel
    rw [e3] at hf
    have := child_fill.symm.trans hf
    cases this
    exact child_crossed

theorem dims (a : String × Controller ℚ) (ha : a ∈ sc.agents) (rs : List (Rect.Box ℚ)) (hrs : Dict.get? sc.init a.1 = some rs) (r : Rect.Box ℚ) (hr : r ∈ rs) :
    r.1.length = 1 ∧ r.2.length = 1 := by
  rcases mem_agents (a := a.1) (c := a.2) ha with ⟨h1, -⟩ | ⟨h1, -⟩
  · rw [h1] at hrs; cases hrs; rw [List.mem_singleton] at hr; subst hr; exact ⟨rfl, rfl⟩
  · rw [h1] at hrs; cases hrs; rw [List.mem_singleton] at hr; subst hr; exact ⟨rfl, rfl⟩

/-- The hypotheses of `C55_modes_partial` are met: this execution, in which the agent switches, has a path in the tree. -/
example : ∃ t, Returned cfg (bodyOf T sc) [] t ∧ ∃ us, PathIn t us ∧ Tracks ["a", "b"] 1 3 0 [(ex1, 2), (ex2, 1)] us := by
  obtain ⟨t, ht⟩ := returned
  refine ⟨t, ht, C55_modes_partial T sc sig bloat mapH id (fun _ => []) (fun _ => none) flow 1 3 (fun _ => 1) cfg t good modesOnly (fun _ _ => rfl) shapes correct complete wf dims
    (fun _ _ _ _ h => drift_dims h) (soundTubes 3) (by norm_num) (fun _ => ⟨rfl, rfl, rfl⟩) rfl rfl (by decide +kernel) ht (safe ht) nodes_ok _ execution ?_ ?_ (by decide)⟩
  · intro x hx
    simp only [List.head?_cons, Option.some.injEq] at hx
    subst hx
    exact starts
  · intro mh hm
    cases hm
    decide

/-- The hypotheses of `C80_modes_partial` are met: the asserts are true in this execution. -/
theorem fine : ∀ k s, Occurs (bodyOf T sc) [(ex1, 2), (ex2, 1)] k s → k < 3 → Fine T sc sig s := by
  obtain ⟨t, ht⟩ := returned
  refine C80_modes_partial T sc sig bloat mapH id (fun _ => []) (fun _ => none) flow 1 3 (fun _ => 1) cfg t good modesOnly (fun _ _ => rfl) shapes correct complete wf dims
    (fun _ _ _ _ h => drift_dims h) (soundTubes 3) (by norm_num) (fun _ => ⟨rfl, rfl, rfl⟩) rfl rfl (by decide +kernel) ht (safe ht) nodes_ok _ execution ?_ ?_
  · intro x hx
    simp only [List.head?_cons, Option.some.injEq] at hx
    subst hx
    exact starts
  · intro mh hm
    cases hm
    decide

end Verif.Props.CrossEx
