import Verif.Props.Assembled
import Verif.Proofs.Assembled6
import Mathlib.Data.Rat.Encodable

/-!
A scenario that meets the hypotheses of C55 and C80 for controllers that are given by formulas.
-/

set_option autoImplicit false
set_option linter.unusedSectionVars false

namespace Verif.Props.AsmEx

open Verif.Spec Verif.Ver.Spec Verif.Asm Verif.Asm.Spec Verif.Proofs.Ver Verif.Proofs
open Verif.Grd (Fml Term Key Solver ZFml Iv Answer)
open Verif.Grd.Spec (Correct Complete evZ evF)

abbrev Bdy := Ver.Body (Sense ℚ) (Ready ℚ) ℚ (Grd.Val ℚ) (Reads ℚ)
abbrev V := Grd.Val ℚ

/-! ### the solver -/

/-- A map without lanes, and functions without values. -/
def road : Grd.Road ℚ Unit := ⟨id, fun _ _ => (), fun _ _ _ => 0, fun _ _ _ _ => (0, 0)⟩

def W0 : Grd.Spec.World ℚ := { fn := fun _ _ => .bool false, len := fun _ => 1, dist := road.dist }

/-- Variables of agents. -/
def isAttr : Key → Bool
  | .attr _ _ => true
  | .elem _ _ _ => true
  | _ => false

open Classical in
/-- The right answer. -/
noncomputable def exact (z : ZFml ℚ) (bs : List (Key × Iv ℚ)) : Answer :=
  if ∃ ρ : Grd.Spec.State ℚ, (∀ b ∈ bs, Grd.Spec.Within ρ b.1 b.2) ∧ evZ W0 ρ z then .sat else .unsat

/-- A solver that computes the answer for `v >= r` and `not (v >= r)`. -/
noncomputable def solver : Solver ℚ := fun z bs =>
  match z, bs with
  | .cmp .ge (.var k) (.lit (.num r)), [(k', iv)] =>
    if k = k' ∧ isAttr k = true ∧ iv.1 ≤ iv.2 then (if r ≤ iv.2 then .sat else .unsat) else exact z bs
  | .not (.cmp .ge (.var k) (.lit (.num r))), [(k', iv)] =>
    if k = k' ∧ isAttr k = true ∧ iv.1 ≤ iv.2 then (if iv.1 < r then .sat else .unsat) else exact z bs
  | _, _ => exact z bs

/-- The answers are right, and there always is one. -/
def RightFor (z : ZFml ℚ) (bs : List (Key × Iv ℚ)) (x : Answer) : Prop :=
  (x = .sat → ∃ ρ : Grd.Spec.State ℚ, (∀ b ∈ bs, Grd.Spec.Within ρ b.1 b.2) ∧ evZ W0 ρ z) ∧
    (x = .unsat → ∀ ρ : Grd.Spec.State ℚ, (∀ b ∈ bs, Grd.Spec.Within ρ b.1 b.2) → ¬ evZ W0 ρ z) ∧ x ≠ .unknown

theorem exact_right (z : ZFml ℚ) (bs : List (Key × Iv ℚ)) : RightFor z bs (exact z bs) := by
  unfold exact RightFor
  split
  · rename_i h
    exact ⟨fun _ => h, fun h => (by cases h), by simp⟩
  · rename_i h
    exact ⟨fun h => (by cases h), fun _ ρ h1 h2 => h ⟨ρ, h1, h2⟩, by simp⟩

theorem look_attr (k : Key) (h : isAttr k = true) (v : V) : Grd.Spec.look (fun _ => v) k = v := by
  cases k <;> first | rfl | cases h

theorem ge_iff {ρ : Grd.Spec.State ℚ} {k : Key} {x r : ℚ} (h : Grd.Spec.look ρ k = .num x) : evZ W0 ρ (.cmp .ge (.var k) (.lit (.num r))) ↔ r ≤ x := by
  simp only [evZ, Grd.Spec.evT, h, Grd.Spec.holds]

theorem solver_right (z : ZFml ℚ) (bs : List (Key × Iv ℚ)) : RightFor z bs (solver z bs) := by
  unfold solver
  split
  · rename_i k r k' iv
    split
    · rename_i h
      obtain ⟨rfl, hk, hle⟩ := h
      split
      · rename_i hr
        refine ⟨fun _ => ⟨fun _ => .num iv.2, ?_, ?_⟩, fun h => (by cases h), by simp⟩
        · intro b hb
          rw [List.mem_singleton.1 hb]
          exact ⟨iv.2, look_attr k hk _, hle, le_refl _⟩
        · exact (ge_iff (look_attr k hk _)).2 hr
      · rename_i hr
        refine ⟨fun h => (by cases h), fun _ ρ hb he => ?_, by simp⟩
        obtain ⟨x, hx, h1, h2⟩ := hb (k, iv) (by simp)
        exact hr (le_trans ((ge_iff hx).1 he) h2)
    · exact exact_right _ _
  · rename_i k r k' iv
    split
    · rename_i h
      obtain ⟨rfl, hk, hle⟩ := h
      split
      · rename_i hr
        refine ⟨fun _ => ⟨fun _ => .num iv.1, ?_, ?_⟩, fun h => (by cases h), by simp⟩
        · intro b hb
          rw [List.mem_singleton.1 hb]
          exact ⟨iv.1, look_attr k hk _, le_refl _, hle⟩
        · simp only [evZ]
          exact fun he => absurd ((ge_iff (look_attr k hk _)).1 he) (not_le.2 hr)
      · rename_i hr
        refine ⟨fun h => (by cases h), fun _ ρ hb he => ?_, by simp⟩
        obtain ⟨x, hx, h1, h2⟩ := hb (k, iv) (by simp)
        simp only [evZ] at he
        exact he ((ge_iff hx).2 (le_trans (not_lt.1 hr) h1))
    · exact exact_right _ _
  · exact exact_right _ _

noncomputable def T : Tools ℚ Unit := { fn := W0.fn, road := road, solver := solver }

/-! ### the scenario -/

def df : Sns.Def := ⟨["x"], ["agent_mode"], []⟩

/-- `ego.agent_mode == A` -/
def inA : Fml ℚ := .cmp .eq (.var (.attr "ego" "agent_mode")) (.lit (.str "A"))

/-- `ego.agent_mode == A and ego.x >= 3/2` -/
def grd : Fml ℚ := .and (.cons inA (.cons (.cmp .ge (.var (.attr "ego" "x")) (.lit (.num (3/2)))) .nil))

/-- `if ego.agent_mode == A and ego.x >= 3/2: output.agent_mode = B; output.x = 10` -/
def rules : List (Rule ℚ) := [⟨"agent_mode", grd, .const (.str "B")⟩, ⟨"x", grd, .arith (.atom ['1', '0'])⟩]

/-- `assert not ego.agent_mode == A or all(other.x >= 4 for other in others)` and `assert ego.x >= -1` -/
def claims : List (Claim ℚ) :=
  [⟨"far", inA, .red true "other" "others" (.cmp .ge (.var (.attr "other" "x")) (.lit (.num 4)))⟩,
    ⟨"low", .bool true, .cmp .ge (.var (.attr "ego" "x")) (.lit (.num (-1)))⟩]

def ctlA : Controller ℚ :=
  { args := [⟨"ego", some "State"⟩, ⟨"others", some "State"⟩], defs := [("State", df)], rules := rules, claims := claims, cont := ["x"],
    disc := ["agent_mode"], discType := ["AgentMode"] }

def ctlB : Controller ℚ := { args := [], defs := [], rules := [], claims := [], cont := ["x"], disc := ["agent_mode"], discType := ["AgentMode"] }

/-- The agent `a` with this controller, and one without. -/
def sc : Scenario ℚ :=
  { agents := [("a", ctlA), ("b", ctlB)], mode := [("a", [.str "A"]), ("b", [.str "A"])], init := [("a", [([0], [1])]), ("b", [([5], [6])])],
    static := [("a", []), ("b", [])] }

def sig : String → Sig := fun _ => ⟨df, some ("others", df)⟩

theorem mem_agents {a : String} {c : Controller ℚ} (h : (a, c) ∈ sc.agents) : (a = "a" ∧ c = ctlA) ∨ (a = "b" ∧ c = ctlB) := by
  simpa [sc] using h

theorem ctl_args {a : String} {c : Controller ℚ} (h : (a, c) ∈ sc.agents) (hc : c.args ≠ []) : a = "a" ∧ c = ctlA := by
  rcases mem_agents h with h | ⟨_, rfl⟩
  · exact h
  · exact absurd rfl hc

theorem correct : Correct (ground T sc) T.solver := fun z bs _ => ⟨(solver_right z bs).1, (solver_right z bs).2.1⟩

theorem complete : Complete T.solver := fun z bs _ => (solver_right z bs).2.2

theorem inA_modeOnly : ModeOnly (sig "a") inA :=
  ⟨by decide, fun W ρ => by simp [Grd.Spec.asksF, Grd.Spec.asksT, inA],
    fun k hk => by
      simp only [inA, Grd.keysF, Grd.keysT, List.append_nil, List.mem_singleton] at hk
      exact .inr ⟨"agent_mode", by simp [sig, df], hk⟩⟩

theorem good : GoodScenario sc sig := by
  refine ⟨by decide, ?_, ?_, ?_⟩
  · intro a c h hc
    obtain ⟨rfl, rfl⟩ := ctl_args h hc
    refine ⟨⟨"State", by decide +kernel, rfl⟩, by decide, ?_⟩
    refine ⟨by decide +kernel, by decide, "State", by decide +kernel, rfl⟩
  · intro a c h f hf i
    rcases mem_agents h with ⟨rfl, rfl⟩ | ⟨rfl, rfl⟩
    · simp only [formulas, ctlA, rules, claims, List.map_cons, List.map_nil, List.flatMap_cons, List.flatMap_nil, List.append_nil, List.cons_append,
        List.nil_append, List.mem_cons, List.not_mem_nil, or_false] at hf
      rcases hf with rfl | rfl | rfl | rfl | rfl | rfl <;> simp [grd, inA, Grd.keysF, Grd.keysFs, Grd.keysT]
    · simp [formulas, ctlB] at hf
  · intro a c h y hy
    rcases mem_agents h with ⟨rfl, rfl⟩ | ⟨rfl, rfl⟩
    · simp only [ctlA, claims, List.mem_cons, List.not_mem_nil, or_false] at hy
      rcases hy with rfl | rfl
      · exact inA_modeOnly
      · exact ⟨by decide, fun W ρ => by simp [Grd.Spec.asksF], fun k hk => by simp [Grd.keysF] at hk⟩
    · simp [ctlB] at hy

theorem shapes : Shapes sc sig (fun _ => 1) := by
  refine ⟨?_, ?_, ?_⟩
  · intro a c m h hc hm
    obtain ⟨rfl, rfl⟩ := ctl_args h hc
    cases hm
    rfl
  · intro a c m st h hc hm hs
    obtain ⟨rfl, rfl⟩ := ctl_args h hc
    cases hm
    cases hs
    exact ⟨rfl, rfl, rfl⟩
  · intro a c n df h hc he o c' m st ho hne hm hs
    obtain ⟨rfl, rfl⟩ := ctl_args h hc
    cases he
    rcases mem_agents ho with ⟨rfl, rfl⟩ | ⟨rfl, rfl⟩
    · exact absurd rfl hne
    · cases hm
      cases hs
      exact ⟨rfl, rfl, rfl⟩

/-! ### the tubes -/

/-- The agent `a` moves one unit per step in mode `A`; everything else stands still. -/
def speed (a : String) (m : List V) : ℚ := if a = "a" ∧ m = [.str "A"] then 1 else 0

def bloat : String → List V → Rect.Box ℚ → ℚ → Ver.Tube ℚ := fun a m c remain => ExecEx.drift (speed a m) c remain.num.toNat

def flow (a : String) (m : List V) (ρ : Nat → List ℚ) : Prop := ∀ k, ρ k = (ρ 0).map (· + speed a m * (k : ℚ))

/-- Numbers are written in unary. -/
noncomputable def code : ℚ → Nat := Encodable.encode
theorem code_inj : Function.Injective code := Encodable.encode_injective

noncomputable def sh (v : ℚ) : Rst.Text := List.replicate (code v) '#'

open Classical in
noncomputable def rd (t : Rst.Text) : Option ℚ := if t = ['1', '0'] then some 10 else if h : ∃ v, sh v = t then some h.choose else none

theorem rd_sh (v : ℚ) : rd (sh v) = some v := by
  have h1 : sh v ≠ ['1', '0'] := by
    intro e
    have : '1' ∈ sh v := by rw [e]; simp
    exact absurd (List.eq_of_mem_replicate this) (by decide)
  have h2 : ∃ u, sh u = sh v := ⟨v, rfl⟩
  unfold rd
  rw [if_neg h1, dif_pos h2]
  have h3 := congrArg List.length h2.choose_spec
  simp only [sh, List.length_replicate] at h3
  exact congrArg some (code_inj h3)

/-- Every mode change is permitted. -/
def mapH : Option V → List V → List V → Option V := fun t _ _ => t

noncomputable def wld : Ver.World (Sense ℚ) ℚ V := worldOf sc bloat 1 mapH id sh rd

theorem drift_dims {a : String} {m : List V} {c : Rect.Box ℚ} {h : ℚ} {d : Nat} (hc : c.1.length = d ∧ c.2.length = d) :
    ∀ s ∈ bloat a m c h, s.box.1.length = d ∧ s.box.2.length = d := by
  intro s hs
  simp only [bloat, ExecEx.drift] at hs
  obtain ⟨i, -, rfl⟩ := List.mem_map.1 hs
  simp [hc.1, hc.2]

theorem soundTubes (N : Nat) : SoundTubes wld flow 1 N (fun _ => 1) := by
  have hlen : ∀ k : Nat, (((N - k : Nat) : ℚ) * 1).num.toNat = N - k := by
    intro k; rw [mul_one, Rat.num_natCast]; rfl
  refine ⟨?_, ?_, ?_, ?_⟩
  · intro a m c k _ _
    simp only [wld, worldOf, bloat, ExecEx.drift, hlen, List.length_map, List.length_range]
  · intro a m c k j s _ _ hs
    simp only [wld, worldOf, bloat, ExecEx.drift, hlen] at hs
    rw [List.getElem?_map] at hs
    obtain ⟨i, hi, rfl⟩ := Option.map_eq_some_iff.1 hs
    obtain ⟨hj, hij⟩ := List.getElem?_eq_some_iff.1 hi
    rw [List.getElem_range] at hij
    subst hij
    simp
  · intro a m c k h1 h2 s hs
    exact drift_dims ⟨h1, h2⟩ s hs
  · intro a m c k j s ρ hρ hin hs
    simp only [wld, worldOf, bloat, ExecEx.drift] at hs
    rw [List.getElem?_map] at hs
    obtain ⟨i, hi, rfl⟩ := Option.map_eq_some_iff.1 hs
    obtain ⟨hj, hij⟩ := List.getElem?_eq_some_iff.1 hi
    rw [List.getElem_range] at hij
    subst hij
    rw [hρ]
    constructor
    · dsimp only
      rw [List.forall₂_map_left_iff, List.forall₂_map_right_iff]
      exact hin.1.imp (fun a b h => by linarith)
    · dsimp only
      rw [List.forall₂_map_left_iff, List.forall₂_map_right_iff]
      exact hin.2.imp (fun a b h => by linarith)

noncomputable def cfg : Engine.Cfg Bdy (Ver.Trace ℚ) Ver.Hits :=
  { kind := .ver, parallel := false, ahead := 1, maxHeight := some 4, horizon := 3, round10 := id, roundN := id, step := Ver.verStep wld, noHits := .ok none }

/-! ### the nodes -/

def seg (i : Nat) (l h : ℚ) : Ver.Seg ℚ := ⟨i, i + 1, ([l], [h])⟩

noncomputable def root : Engine.Work Bdy (Ver.Trace ℚ) := ⟨0, 0, bodyOf T sc, []⟩

noncomputable def child : Engine.Work Bdy (Ver.Trace ℚ) :=
  ⟨1, 1, { bodyOf T sc with mode := [("a", [.str "B"]), ("b", [.str "A"])], init := [("a", [([10], [10]), ([10], [10])]), ("b", [([5], [6])])] },
    [("b", [seg 1 5 6, seg 2 5 6])]⟩

def rootFull : Ver.Trace ℚ := [("a", [seg 0 0 1, seg 1 1 2, seg 2 2 3]), ("b", [seg 0 5 6, seg 1 5 6, seg 2 5 6])]
def childFull : Ver.Trace ℚ := [("b", [seg 1 5 6, seg 2 5 6]), ("a", [seg 1 10 10, seg 2 10 10])]

/-- What can be seen of a child: start, modes, initial rectangles and tubes. -/
structure ChildView where
  start : ℚ
  mode  : Dict String (List V)
  init  : Dict String (List (Rect.Box ℚ))
  tubes : Ver.Trace ℚ
deriving DecidableEq

/-- What can be seen of the result: failed asserts, children, and the tubes. -/
structure View where
  hits  : Option (Dict String (List String))
  next  : List ChildView
  tubes : Ver.Trace ℚ
deriving DecidableEq

def show_ (r : Engine.Result Bdy (Ver.Trace ℚ) (Option (Dict String (List String)))) : View :=
  ⟨r.hits, r.next.map (fun c => ⟨c.start, c.body.mode, c.body.init, c.trace⟩), r.trace⟩

theorem of_show {n : Engine.Work Bdy (Ver.Trace ℚ)} {t : ℚ} {v : View} (h : (Ver.verifyOne wld n t).map show_ = .ok v) :
    ∃ res, Ver.verifyOne wld n t = .ok res ∧ res.hits = v.hits ∧ res.trace = v.tubes ∧
      ∀ c ∈ res.next, (⟨c.start, c.body.mode, c.body.init, c.trace⟩ : ChildView) ∈ v.next := by
  obtain ⟨res, h1, rfl⟩ := (map_ok_iff _ _ _).1 h
  exact ⟨res, h1, rfl, rfl, fun c hc => List.mem_map_of_mem (f := fun c => (⟨c.start, c.body.mode, c.body.init, c.trace⟩ : ChildView)) hc⟩

theorem root_run : (Ver.verifyOne wld root 3).map show_ = .ok ⟨none, [⟨1, child.body.mode, child.body.init, child.trace⟩], rootFull⟩ := by
  decide +kernel

theorem child_run : (Ver.verifyOne wld child 2).map show_ = .ok ⟨none, [], childFull⟩ := by
  decide +kernel

theorem root_fill : Ver.fillTubes wld root.body 0 3 [] = .ok rootFull := by decide +kernel
theorem child_fill : Ver.fillTubes wld child.body 1 2 child.trace = .ok childFull := by decide +kernel

/-- The nodes of this scenario. -/
theorem visited {n : Engine.Work Bdy (Ver.Trace ℚ)} (h : Visited wld cfg (bodyOf T sc) n) : n = root ∨ n = child := by
  induction h with
  | root => exact .inl rfl
  | @child n c _ hc ih =>
    right
    rcases ih with rfl | rfl
    · have e : cfg.round10 (cfg.horizon - root.start) = 3 := by decide +kernel
      rw [e] at hc
      obtain ⟨res, h1, _, _, h4⟩ := of_show root_run
      simp only [Ver.verStep, h1] at hc
      have h5 := h4 c hc
      obtain ⟨h6, h7⟩ := ExecEx.next_agents h1 c hc
      simp only [List.mem_singleton, ChildView.mk.injEq] at h5
      obtain ⟨e1, e2, e3, e4⟩ := h5
      obtain ⟨start, bd, tr⟩ := c
      obtain ⟨ags, md, ini, st⟩ := bd
      simp only at e1 e2 e3 e4 h6 h7
      subst e1 e2 e3 e4 h6 h7
      rfl
    · have e : cfg.round10 (cfg.horizon - child.start) = 2 := by decide +kernel
      rw [e] at hc
      obtain ⟨res, h1, _, _, h4⟩ := of_show child_run
      simp only [Ver.verStep, h1] at hc
      exact absurd (h4 c hc) (by simp)

theorem ctl {b' : Bdy} (hb : b'.agents = (bodyOf T sc).agents) {a : String} {dl : Ver.Logic (Sense ℚ) (Ready ℚ) ℚ V (Reads ℚ)} (h : Controlled b' a dl) :
    a = "a" ∧ dl = logicOf T ctlA := by
  obtain ⟨c, hc, ha, rfl⟩ := (Proofs.Asm.controlled_iff (T := T) hb).1 h
  obtain ⟨rfl, rfl⟩ := ctl_args hc ha
  exact ⟨rfl, rfl⟩

theorem ctlA_controlled {b' : Bdy} (hb : b'.agents = (bodyOf T sc).agents) : Controlled b' "a" (logicOf T ctlA) :=
  (Proofs.Asm.controlled_iff (T := T) hb).2 ⟨ctlA, by simp [sc], by simp [ctlA], rfl⟩

theorem mem_paths {p : Ver.Path (Sense ℚ) (Ready ℚ) ℚ V (Reads ℚ)} (h : p ∈ (logicOf T ctlA).paths) :
    p = pathOf T ⟨"agent_mode", grd, .const (.str "B")⟩ ∨ p = pathOf T ⟨"x", grd, .arith (.atom ['1', '0'])⟩ := by
  simpa [logicOf, ctlA, rules] using h

/-- The rectangles of the root at a step. -/
def rootSd (i : Nat) : Ver.StateDict ℚ V := [("a", seg i i (i + 1), [.str "A"], []), ("b", seg i 5 6, [.str "A"], [])]
/-- The rectangles of the child at a step. -/
def childSd (i : Nat) : Ver.StateDict ℚ V := [("a", seg (i + 1) 10 10, [.str "B"], []), ("b", seg (i + 1) 5 6, [.str "A"], [])]

set_option synthInstance.maxSize 4000 in
set_option synthInstance.maxHeartbeats 400000 in
theorem root_boxes {i : Nat} {sd : Ver.StateDict ℚ V} : Boxes root.body rootFull i sd ↔ i < 3 ∧ sd = rootSd i := by
  rw [← stateDict_ok_iff]
  match i with
  | 0 =>
    have h : Ver.stateDict root.body rootFull 0 = .ok (rootSd 0) := by decide +kernel
    rw [h]; simp [eq_comm]
  | 1 =>
    have h : Ver.stateDict root.body rootFull 1 = .ok (rootSd 1) := by decide +kernel
    rw [h]; simp [eq_comm]
  | 2 =>
    have h : Ver.stateDict root.body rootFull 2 = .ok (rootSd 2) := by decide +kernel
    rw [h]; simp [eq_comm]
  | i + 3 =>
    refine ⟨fun h => ?_, fun h => absurd h.1 (by omega)⟩
    cases (stateDict_ok_iff _ _ _ _).1 h with
    | cons h1 _ =>
      obtain ⟨-, ⟨segs, h2, h3⟩, -⟩ := h1
      have h4 : segs = [seg 0 0 1, seg 1 1 2, seg 2 2 3] := (Option.some.inj h2).symm
      subst h4
      simp at h3

set_option synthInstance.maxSize 4000 in
set_option synthInstance.maxHeartbeats 400000 in
theorem child_boxes {i : Nat} {sd : Ver.StateDict ℚ V} : Boxes child.body childFull i sd ↔ i < 2 ∧ sd = childSd i := by
  rw [← stateDict_ok_iff]
  match i with
  | 0 =>
    have h : Ver.stateDict child.body childFull 0 = .ok (childSd 0) := by decide +kernel
    rw [h]; simp [eq_comm]
  | 1 =>
    have h : Ver.stateDict child.body childFull 1 = .ok (childSd 1) := by decide +kernel
    rw [h]; simp [eq_comm]
  | i + 2 =>
    refine ⟨fun h => ?_, fun h => absurd h.1 (by omega)⟩
    cases (stateDict_ok_iff _ _ _ _).1 h with
    | cons h1 _ =>
      obtain ⟨-, ⟨segs, h2, h3⟩, -⟩ := h1
      have h4 : segs = [seg 1 10 10, seg 2 10 10] := by
        have : Dict.get? childFull "a" = some [seg 1 10 10, seg 2 10 10] := by decide +kernel
        exact Option.some.inj (h2.symm.trans this)
      subst h4
      simp at h3

/-- The answer for the guard: at step `i` of the root. -/
noncomputable def ask (sd0 sd : Ver.StateDict ℚ V) : Except String (Option (Bool × Bool)) :=
  (prepare T grd (senseIn sc "a" sd0)).bind fun o => match o with
    | none => .ok none
    | some g => (evaluate T g (senseIn sc "a" sd)).map some

theorem ask0 : ask (rootSd 0) (rootSd 0) = .ok (some (false, false)) := by decide +kernel
theorem ask1 : ask (rootSd 0) (rootSd 1) = .ok (some (true, false)) := by decide +kernel
theorem ask2 : ask (rootSd 0) (rootSd 2) = .ok (some (true, true)) := by decide +kernel
theorem askc (i : Nat) : ask (childSd 0) (childSd i) = .ok none := by
  have h : (prepare T grd (senseIn sc "a" (childSd 0))).map Option.isSome = .ok false := by decide +kernel
  obtain ⟨o, h1, h2⟩ := (map_ok_iff _ _ _).1 h
  cases o with
  | none => unfold ask; rw [h1]; rfl
  | some g => cases h2

theorem ask_some {sd0 sd : Ver.StateDict ℚ V} {r : Bool × Bool} (h : ask sd0 sd = .ok (some r)) :
    ∃ g, prepare T grd (senseIn sc "a" sd0) = .ok (some g) ∧ evaluate T g (senseIn sc "a" sd) = .ok r := by
  obtain ⟨o, h1, h2⟩ := (bind_ok_iff _ _ _).1 h
  cases o with
  | none => cases h2
  | some g =>
    obtain ⟨x, h3, h4⟩ := (map_ok_iff _ _ _).1 h2
    cases h4
    exact ⟨g, h1, h3⟩

theorem ask_of {sd0 sd : Ver.StateDict ℚ V} {r : Bool × Bool} {p : Ver.Path (Sense ℚ) (Ready ℚ) ℚ V (Reads ℚ)} (hp : p ∈ (logicOf T ctlA).paths)
    {g : Ready ℚ} (h1 : p.prep (wld.sense "a" sd0) = .ok (some g)) (h2 : p.check g (wld.sense "a" sd) = .ok r) : ask sd0 sd = .ok (some r) := by
  have h1' : prepare T grd (senseIn sc "a" sd0) = .ok (some g) := by rcases mem_paths hp with rfl | rfl <;> exact h1
  have h2' : evaluate T g (senseIn sc "a" sd) = .ok r := by rcases mem_paths hp with rfl | rfl <;> exact h2
  unfold ask
  rw [h1']
  show (evaluate T g (senseIn sc "a" sd)).map some = _
  rw [h2']
  rfl

theorem root_asked {i : Nat} {a : String} {p : Ver.Path (Sense ℚ) (Ready ℚ) ℚ V (Reads ℚ)} {r : Bool × Bool} (h : Asked wld root.body rootFull i a p r) :
    (i = 0 ∧ r = (false, false)) ∨ (i = 1 ∧ r = (true, false)) ∨ (i = 2 ∧ r = (true, true)) := by
  obtain ⟨dl, sd0, sd, g, hc, hp, h0, h1, h2, h3⟩ := h
  obtain ⟨rfl, rfl⟩ := ctl rfl hc
  obtain ⟨-, rfl⟩ := root_boxes.1 h0
  obtain ⟨hi, rfl⟩ := root_boxes.1 h1
  have h4 := ask_of hp h2 h3
  rcases (by omega : i = 0 ∨ i = 1 ∨ i = 2) with rfl | rfl | rfl
  · rw [ask0] at h4; cases h4; exact .inl ⟨rfl, rfl⟩
  · rw [ask1] at h4; cases h4; exact .inr (.inl ⟨rfl, rfl⟩)
  · rw [ask2] at h4; cases h4; exact .inr (.inr ⟨rfl, rfl⟩)

theorem child_asked {i : Nat} {a : String} {p : Ver.Path (Sense ℚ) (Ready ℚ) ℚ V (Reads ℚ)} {r : Bool × Bool} (h : Asked wld child.body childFull i a p r) :
    False := by
  obtain ⟨dl, sd0, sd, g, hc, hp, h0, h1, h2, h3⟩ := h
  obtain ⟨rfl, rfl⟩ := ctl (b' := child.body) rfl hc
  obtain ⟨-, rfl⟩ := child_boxes.1 h0
  obtain ⟨hi, rfl⟩ := child_boxes.1 h1
  have h4 := ask_of hp h2 h3
  rw [askc] at h4
  cases h4

theorem root_hit {i : Nat} {r : Bool × Bool} (hi : i < 3) (h : ask (rootSd 0) (rootSd i) = .ok (some r)) :
    Asked wld root.body rootFull i "a" (pathOf T ⟨"agent_mode", grd, .const (.str "B")⟩) r := by
  obtain ⟨g, h1, h2⟩ := ask_some h
  exact ⟨logicOf T ctlA, rootSd 0, rootSd i, g, ctlA_controlled rfl, by simp [logicOf, ctlA, rules], root_boxes.2 ⟨by omega, rfl⟩, root_boxes.2 ⟨hi, rfl⟩, h1, h2⟩

/-- What a reset knows. -/
theorem root_cont (i : Nat) (hi : i < 3) : (senseIn sc "a" (rootSd i)).map (fun s => s.cont.map fun kv => (keyText kv.1, kv.2)) =
    .ok [("ego.x".toList, ((i : ℚ), (i : ℚ) + 1))] := by
  rcases (by omega : i = 0 ∨ i = 1 ∨ i = 2) with rfl | rfl | rfl <;> decide +kernel

theorem rd10 : rd ['1', '0'] = some 10 := by simp [rd]

theorem readable (l h : ℚ) : Rst.Spec.Readable sh rd [("ego.x".toList, (l, h))] (.atom ['1', '0']) := by
  refine ⟨by simp, ?_, ?_, ?_⟩
  · intro kv hkv
    rw [List.mem_singleton.1 hkv]
    show "ego.x".toList ≠ []
    decide
  · intro kv hkv t ht hin
    rw [List.mem_singleton.1 hkv] at hin
    have ht' : t = ['1', '0'] := by simpa [Rst.Spec.Occurs, Rst.Ex.atoms] using ht
    subst ht'
    have : ¬ "ego.x".toList <:+: ['1', '0'] := by decide +kernel
    exact absurd hin this
  · intro kv hkv kv' _ v _
    rw [List.mem_singleton.1 hkv]
    refine ⟨fun hin => ?_, rd_sh v⟩
    have h0 : 'e' ∈ "ego.x".toList := by decide
    have : 'e' ∈ sh v := hin.subset h0
    exact absurd (List.eq_of_mem_replicate this) (by decide)

theorem root_resettable : Resettable wld root.body rootFull := by
  intro a dl p sd0 i sd g C hc hp h0 h1 _ hC
  obtain ⟨rfl, rfl⟩ := ctl rfl hc
  obtain ⟨hi, rfl⟩ := root_boxes.1 h1
  rcases mem_paths hp with rfl | rfl
  · exact ⟨fun e he => (by cases he), fun _ => ⟨fun e he => (by cases he), fun v he => (by cases he)⟩⟩
  · have hC' := (root_cont i hi).symm.trans hC
    cases hC'
    refine ⟨fun e he _ => ?_, fun h => ?_⟩
    · cases he
      refine ⟨readable _ _, trivial, fun vars hv => ?_⟩
      have h10 : ∀ y, vars ['1', '0'] = y → y = none := by
        intro y hy
        have := hv ['1', '0']
        simp only [Dict.get?_cons] at this
        rw [if_neg (by decide)] at this
        exact hy.symm.trans this
      have hval : ∀ u : Rst.Text → Option ℚ, u ['1', '0'] = none → Rst.Spec.value rd u (.atom ['1', '0']) = some 10 := by
        intro u hu
        simp only [Rst.Spec.value, hu, Option.none_or, rd10]
      have hv0 : vars ['1', '0'] = none := h10 _ rfl
      refine ⟨⟨10, hval _ hv0⟩, ?_⟩
      intro t r y yl yh ht hy hl hh
      change Rst.Spec.value rd _ _ = _ at hy hl hh
      have htt : t = "ego.x".toList := congrArg Prod.fst (List.mem_singleton.1 ht)
      have hup : ∀ z, Rst.Spec.upd vars t z ['1', '0'] = none := by
        intro z
        unfold Rst.Spec.upd
        rw [if_neg (by rw [htt]; decide), hv0]
      rw [hval _ hv0] at hy
      rw [hval _ (hup _)] at hl hh
      cases hy; cases hl; cases hh
      simp
    · simp only [pathOf, logicOf, ctlA, List.mem_singleton] at h
      exact absurd h (by decide)

theorem permits {b' : Bdy} (hb : b'.agents = (bodyOf T sc).agents) {a : String} {dl : Ver.Logic (Sense ℚ) (Ready ℚ) ℚ V (Reads ℚ)} (h : Controlled b' a dl)
    (m m' : List V) : MapPermits wld dl m m' := by
  obtain ⟨rfl, rfl⟩ := ctl hb h
  exact ⟨m, none, m', none, .all noTrack, .none noTrack, .all noTrack, .none noTrack, .inr rfl⟩

theorem holds_iff {p : Ver.Path (Sense ℚ) (Ready ℚ) ℚ V (Reads ℚ)} (hp : p ∈ (logicOf T ctlA).paths) (s : Snap ℚ V) :
    (meaningOf T sc sig).holds p "a" s ↔ TrueFor T sc sig "a" s grd := by
  constructor
  · rintro ⟨c, r, hc, hr, -, ht⟩
    rcases mem_agents hc with ⟨-, rfl⟩ | ⟨h, -⟩
    · simp only [ctlA, rules, List.mem_cons, List.not_mem_nil, or_false] at hr
      rcases hr with rfl | rfl <;> exact ht
    · exact absurd h (by decide)
  · intro ht
    rcases mem_paths hp with rfl | rfl
    · exact ⟨ctlA, ⟨"agent_mode", grd, .const (.str "B")⟩, by simp [sc], by simp [ctlA, rules], rfl, ht⟩
    · exact ⟨ctlA, ⟨"x", grd, .arith (.atom ['1', '0'])⟩, by simp [sc], by simp [ctlA, rules], rfl, ht⟩

/-- All guards are the same. -/
theorem alone {b' : Bdy} (hb : b'.agents = (bodyOf T sc).agents) (tr : Ver.Trace ℚ) : ∀ i snap a dl dest post, InTube b' tr i snap →
    CanSwitch (meaningOf T sc sig) wld b' snap a dl dest post → NoExtraHit (meaningOf T sc sig) wld b' tr i a dl snap := by
  rintro i snap a dl dest post _ ⟨state, mode, static, hc, _, _, _, ⟨choice, c1, c2, ⟨v, c3⟩, _⟩, _⟩ p hpm _
  obtain ⟨rfl, rfl⟩ := ctl hb hc
  obtain ⟨q, hq⟩ := Option.isSome_iff_exists.1 c3
  obtain ⟨q1, _, q2⟩ := c1 v q hq
  exact ⟨p, hpm, rfl, (holds_iff hpm snap).2 ((holds_iff q1 snap).1 q2)⟩

/-- The steps of the transitions that are found. -/
def idxs (f : Ver.Found (Sense ℚ) (Ready ℚ) ℚ V (Reads ℚ)) : List (List Nat) :=
  match f with
  | .asserts _ _ => []
  | .trans ts => ts.map (fun t => t.idxs)

theorem root_ok : NodeRest (meaningOf T sc sig) wld root rootFull := by
  refine ⟨root_resettable, ?_, ?_, ?_, ?_, alone rfl _⟩
  · intro j k a p hjk _ _ hk
    have hk3 : k < 3 := hk ("a", [seg 0 0 1, seg 1 1 2, seg 2 2 3]) (by simp [rootFull])
    refine ⟨"a", pathOf T ⟨"agent_mode", grd, .const (.str "B")⟩, ?_⟩
    rcases (by omega : k = 1 ∨ k = 2) with rfl | rfl
    · exact ⟨false, root_hit (by omega) ask1⟩
    · exact ⟨true, root_hit (by omega) ask2⟩
  · rintro j a p ⟨c, h⟩ o ho _ rs hrs
    rcases root_asked h with ⟨-, h⟩ | ⟨-, h⟩ | ⟨rfl, -⟩
    · cases h
    · cases h
    · obtain ⟨o', ho', rfl⟩ := List.mem_map.1 ho
      rcases mem_agents (a := o'.1) (c := o'.2) ho' with ⟨h1, -⟩ | ⟨h1, -⟩
      · rw [h1] at hrs; cases hrs; decide
      · rw [h1] at hrs; cases hrs; decide
  · intro ts hts t ht k i hi
    have h1 : (Ver.getTransitions wld root.body rootFull).map idxs = .ok [[1, 2]] := by decide +kernel
    rw [hts] at h1
    have h2 : ts.map (fun t => t.idxs) = [[1, 2]] := by
      simpa only [Except.map, Except.ok.injEq, idxs] using h1
    have h3 : t.idxs ∈ ts.map (fun t => t.idxs) := List.mem_map_of_mem (f := fun (t : Ver.Trans (Sense ℚ) (Ready ℚ) ℚ V (Reads ℚ)) => t.idxs) ht
    rw [h2, List.mem_singleton] at h3
    rw [h3] at hi ⊢
    match k with
    | 0 => cases hi; exact ⟨1, rfl, rfl⟩
    | 1 => cases hi; exact ⟨1, rfl, rfl⟩
    | k + 2 => simp at hi
  · intro i a dl sel src dest hc _ _ _
    exact permits rfl hc _ _

theorem child_ok : NodeRest (meaningOf T sc sig) wld child childFull := by
  refine ⟨?_, ?_, ?_, ?_, ?_, alone (b' := child.body) rfl _⟩
  · intro a dl p sd0 i sd g C hc hp h0 h1 hprep hC
    exfalso
    obtain ⟨rfl, rfl⟩ := ctl (b' := child.body) rfl hc
    obtain ⟨-, rfl⟩ := child_boxes.1 h0
    have h : prepare T grd (senseIn sc "a" (childSd 0)) = .ok (some g) := by rcases mem_paths hp with rfl | rfl <;> exact hprep
    have h' := askc 0
    unfold ask at h'
    rw [h] at h'
    obtain ⟨x, -, h4⟩ := (map_ok_iff _ _ _).1 h'
    cases h4
  · rintro j k a p _ ⟨c, h⟩
    exact (child_asked h).elim
  · rintro j a p ⟨c, h⟩
    exact (child_asked h).elim
  · intro ts hts t ht
    have h1 : (Ver.getTransitions wld child.body childFull).map idxs = .ok [] := by decide +kernel
    rw [hts] at h1
    have h2 : ts.map (fun t => t.idxs) = [] := by
      simpa only [Except.map, Except.ok.injEq, idxs] using h1
    have h3 : t.idxs ∈ ts.map (fun t => t.idxs) := List.mem_map_of_mem (f := fun (t : Ver.Trans (Sense ℚ) (Ready ℚ) ℚ V (Reads ℚ)) => t.idxs) ht
    rw [h2] at h3
    simp at h3
  · intro i a dl sel src dest hc _ _ _
    exact permits (b' := child.body) rfl hc _ _

/-- `verify` returns a tree. -/
theorem returned : ∃ t, Returned cfg (bodyOf T sc) [] t := by
  obtain ⟨N, hN⟩ := C08_terminates cfg (by decide) 4 rfl (bodyOf T sc) []
  obtain ⟨s, hs⟩ := hN (List.replicate N 0) (by simp)
  obtain ⟨g, hg, _⟩ := C07_loop_computes_exploration cfg (by decide) (bodyOf T sc) [] _ s hs
  exact ⟨g.map Label.ofRec, by decide, _, s, g, hs, hg, rfl⟩

/-! ### an execution -/

/-- `x` is 1/4, 5/4, 9/4; then the agent switches, and `x` is 10. -/
def ex1 : Phase ℚ V := ⟨fun _ => [.str "A"], fun a k => if a = "a" then [1/4 + (k : ℚ)] else [11/2]⟩
def ex2 : Phase ℚ V := ⟨fun a => if a = "a" then [.str "B"] else [.str "A"], fun a _ => if a = "a" then [10] else [11/2]⟩

theorem flow1 (x : ℚ) (a : String) : flow a [.str "A"] (fun k => if a = "a" then [x + (k : ℚ)] else [11/2]) := by
  intro k
  by_cases e : a = "a"
  · simp [e, speed]
  · simp [e, speed]

/-- When the guard is true. -/
theorem guard_iff (x y : ℚ) (m m' : V) : TrueFor T sc sig "a" [("a", [x], [m], []), ("b", [y], [m'], [])] grd ↔ m = .str "A" ∧ 3/2 ≤ x := by
  have h1 : view (sig "a") "a" [("a", [x], [m], []), ("b", [y], [m'], [])] (.attr "ego" "agent_mode") = m := rfl
  have h2 : view (sig "a") "a" [("a", [x], [m], []), ("b", [y], [m'], [])] (.attr "ego" "x") = .num x := rfl
  simp only [TrueFor, grd, inA, Grd.Spec.evF, Grd.Spec.evAll, Grd.Spec.evT, Grd.Spec.look, h1, h2, Grd.Spec.holds, and_true]

theorem snap_eq (φ : Phase ℚ V) (k : Nat) : φ.snap (bodyOf T sc) k = [("a", φ.path "a" k, φ.mode "a", []), ("b", φ.path "b" k, φ.mode "b", [])] := rfl

theorem wf : Ver.Spec.Body.WF (bodyOf T sc) := by
  refine ⟨by simp [bodyOf, sc], ?_⟩
  intro x hx
  simp only [bodyOf, sc, List.map_cons, List.map_nil, List.mem_cons, List.not_mem_nil, or_false] at hx
  rcases hx with rfl | rfl
  · exact ⟨by simp [logicOf, ctlA], by simp [logicOf, ctlA], by simp only [logicOf, ctlA, List.mem_singleton, forall_eq]; decide +kernel,
      by simp only [logicOf, ctlA, List.mem_singleton, forall_eq]; decide +kernel⟩
  · exact ⟨by simp [logicOf, ctlB], by simp [logicOf, ctlB], by simp only [logicOf, ctlB, List.mem_singleton, forall_eq]; decide +kernel,
      by simp only [logicOf, ctlB, List.mem_singleton, forall_eq]; decide +kernel⟩

theorem inside1 (x l h : ℚ) (h1 : l ≤ x) (h2 : x ≤ h) : Rect.Spec.Inside [x] ([l], [h]) := ⟨.cons h1 .nil, .cons h2 .nil⟩

theorem path1 (k : Nat) : ex1.path "a" k = [1/4 + (k : ℚ)] := by simp [ex1, ex2]
theorem path1b (k : Nat) : ex1.path "b" k = [11/2] := by simp [ex1, ex2]
theorem path2 (k : Nat) : ex2.path "a" k = [10] := by simp [ex1, ex2]
theorem path2b (k : Nat) : ex2.path "b" k = [11/2] := by simp [ex1, ex2]

theorem execution : Execution (meaningOf T sc sig) wld (bodyOf T sc) flow [(ex1, 2), (ex2, 1)] := by
  have hq1 : Quiet (meaningOf T sc sig) (bodyOf T sc) ex1 2 := by
    intro k a dl p hk hc hp hh
    obtain ⟨rfl, rfl⟩ := ctl rfl hc
    rw [holds_iff hp, snap_eq, path1, path1b] at hh
    have h := ((guard_iff _ _ _ _).1 hh).2
    rcases (by omega : k = 0 ∨ k = 1) with rfl | rfl <;> norm_num at h
  have hq2 : Quiet (meaningOf T sc sig) (bodyOf T sc) ex2 1 := by
    intro k a dl p hk hc hp hh
    obtain ⟨rfl, rfl⟩ := ctl rfl hc
    rw [holds_iff hp, snap_eq, path2, path2b] at hh
    have h := ((guard_iff _ _ _ _).1 hh).1
    exact absurd h (by decide)
  have hh : ∀ p ∈ (logicOf T ctlA).paths, (meaningOf T sc sig).holds p "a" (ex1.snap (bodyOf T sc) 2) := by
    intro p hp
    rw [holds_iff hp, snap_eq, path1, path1b]
    exact (guard_iff _ _ _ _).2 ⟨rfl, by norm_num⟩
  refine .switch hq1 ⟨"a", logicOf T ctlA, ?_, ?_, ?_⟩ (.last hq2)
  · refine ⟨[1/4 + ((2 : Nat) : ℚ)], [.str "A"], [], ctlA_controlled rfl, ?_, rfl, rfl,
      ⟨fun v => if v = "agent_mode" then some (pathOf T ⟨"agent_mode", grd, .const (.str "B")⟩)
        else if v = "x" then some (pathOf T ⟨"x", grd, .arith (.atom ['1', '0'])⟩) else none, ?_, ?_, ⟨"x", by decide⟩, rfl, rfl, ?_, ?_⟩,
        permits rfl (ctlA_controlled rfl) _ _⟩
    · rw [snap_eq, path1]
      exact List.mem_cons_self ..
    · intro v p hv
      dsimp only at hv
      by_cases e : v = "agent_mode"
      · rw [if_pos e] at hv
        cases hv
        have hm : pathOf T ⟨"agent_mode", grd, .const (.str "B")⟩ ∈ (logicOf T ctlA).paths := by simp [logicOf, ctlA, rules]
        exact ⟨hm, e.symm, hh _ hm⟩
      · rw [if_neg e] at hv
        by_cases e' : v = "x"
        · rw [if_pos e'] at hv
          cases hv
          have hm : pathOf T ⟨"x", grd, .arith (.atom ['1', '0'])⟩ ∈ (logicOf T ctlA).paths := by simp [logicOf, ctlA, rules]
          exact ⟨hm, e'.symm, hh _ hm⟩
        · rw [if_neg e'] at hv; cases hv
    · intro p hp _
      rcases mem_paths hp with rfl | rfl <;> rfl
    · intro i v z hv hz
      match i with
      | 0 =>
        simp only [logicOf, ctlA, List.getElem?_cons_zero, Option.some.injEq] at hv
        subst hv
        have : z = .str "B" := by simpa [ex2] using hz.symm
        subst this
        exact .const _
      | i + 1 => simp [logicOf, ctlA] at hv
    · intro i v hv
      match i with
      | 0 =>
        simp only [logicOf, ctlA, List.getElem?_cons_zero, Option.some.injEq] at hv
        subst hv
        refine ⟨_, rfl, 10, rfl, ?_⟩
        show Rst.Spec.value rd (ownVars (sig "a") "a" (ex1.snap (bodyOf T sc) 2)) (.atom ['1', '0']) = some 10
        have hv : ownVars (sig "a") "a" (ex1.snap (bodyOf T sc) 2) ['1', '0'] = none := by
          rw [snap_eq, path1]
          rfl
        simp only [Rst.Spec.value, hv, Option.none_or, rd10]
      | i + 1 => simp [logicOf, ctlA] at hv
  · intro k
    have : speed "a" [.str "B"] = 0 := by decide +kernel
    simp [this, ex2]
  · intro o ho
    exact ⟨by simp [ex2, ex1, ho], fun k => by simp [ex2, ex1, ho]⟩

theorem starts : Starts (bodyOf T sc) flow ex1 := by
  intro a ha
  obtain ⟨a', ha', rfl⟩ := List.mem_map.1 ha
  rcases mem_agents (a := a'.1) (c := a'.2) ha' with ⟨h1, -⟩ | ⟨h1, -⟩
  · dsimp only
    rw [h1]
    exact ⟨rfl, rfl, flow1 (1/4) "a", ([0], [1]), rfl, by rw [path1]; exact inside1 _ _ _ (by norm_num) (by norm_num)⟩
  · dsimp only
    rw [h1]
    exact ⟨rfl, rfl, flow1 (1/4) "b", ([5], [6]), rfl, by rw [path1b]; exact inside1 _ _ _ (by norm_num) (by norm_num)⟩

theorem safe {t : RTree (Label Bdy (Ver.Trace ℚ) Ver.Hits)} (ht : Returned cfg (bodyOf T sc) [] t) : ∀ u k, RTree.Below t u k → u.label.hits = .ok none := by
  intro u k hu
  have hx := Engine.returned_explores ht
  obtain ⟨st', b', tr', h1, h2⟩ := Engine.explores_below_inv (I := fun n => Visited wld cfg (bodyOf T sc) n)
    (fun n _ hn c hc => .child hn hc) hu hx .root
  obtain ⟨-, -, -, h3 | ⟨-, -, h3, -⟩⟩ := Engine.explores_node h1
  · exact h3.2.2.2
  · rw [h3]
    rcases visited h2 with e | e
    · rw [e]
      obtain ⟨res, r1, r2, -⟩ := of_show root_run
      have e3 : cfg.round10 (cfg.horizon - root.start) = 3 := by decide +kernel
      show (Ver.verStep wld root (cfg.round10 (cfg.horizon - root.start))).hits = _
      rw [e3, Ver.verStep, r1]
      show Except.ok res.hits = _
      rw [r2]
    · rw [e]
      obtain ⟨res, r1, r2, -⟩ := of_show child_run
      have e3 : cfg.round10 (cfg.horizon - child.start) = 2 := by decide +kernel
      show (Ver.verStep wld child (cfg.round10 (cfg.horizon - child.start))).hits = _
      rw [e3, Ver.verStep, r1]
      show Except.ok res.hits = _
      rw [r2]

theorem nodes_ok (n : Engine.Work Bdy (Ver.Trace ℚ)) (full : Ver.Trace ℚ) (hn : Visited wld cfg (bodyOf T sc) n)
    (hf : Ver.fillTubes wld n.body n.start (cfg.round10 (cfg.horizon - n.start)) n.trace = .ok full) :
    NodeRest (meaningOf T sc sig) wld n full ∧ MapsFit T sc sig n.body full := by
  refine ⟨?_, Proofs.Asm.mapsFit_free T sc sig _ _ ?_⟩
  · rcases visited hn with rfl | rfl
    · have e3 : cfg.round10 (cfg.horizon - root.start) = 3 := by decide +kernel
      rw [e3] at hf
      have := root_fill.symm.trans hf
      cases this
      exact root_ok
    · have e3 : cfg.round10 (cfg.horizon - child.start) = 2 := by decide +kernel
      rw [e3] at hf
      have := child_fill.symm.trans hf
      cases this
      exact child_ok
  · intro a c hc f hf
    rcases mem_agents hc with ⟨rfl, rfl⟩ | ⟨rfl, rfl⟩
    · simp only [formulas, ctlA, rules, claims, List.map_cons, List.map_nil, List.flatMap_cons, List.flatMap_nil, List.append_nil, List.cons_append,
        List.nil_append, List.mem_cons, List.not_mem_nil, or_false] at hf
      rcases hf with rfl | rfl | rfl | rfl | rfl | rfl <;> rfl
    · simp [formulas, ctlB] at hf

theorem dims (a : String × Controller ℚ) (ha : a ∈ sc.agents) (rs : List (Rect.Box ℚ)) (hrs : Dict.get? sc.init a.1 = some rs) (r : Rect.Box ℚ) (hr : r ∈ rs) :
    r.1.length = 1 ∧ r.2.length = 1 := by
  rcases mem_agents (a := a.1) (c := a.2) ha with ⟨h1, -⟩ | ⟨h1, -⟩
  · rw [h1] at hrs; cases hrs; rw [List.mem_singleton] at hr; subst hr; exact ⟨rfl, rfl⟩
  · rw [h1] at hrs; cases hrs; rw [List.mem_singleton] at hr; subst hr; exact ⟨rfl, rfl⟩

/-- The hypotheses of `C55_formulas_partial` are met: this execution, in which the agent switches, has a path in the tree. -/
example : ∃ t, Returned cfg (bodyOf T sc) [] t ∧ ∃ us, PathIn t us ∧ Tracks ["a", "b"] 1 3 0 [(ex1, 2), (ex2, 1)] us := by
  obtain ⟨t, ht⟩ := returned
  refine ⟨t, ht, C55_formulas_partial T sc sig bloat mapH id sh rd flow 1 3 (fun _ => 1) cfg t good shapes correct complete wf dims
    (fun _ _ _ _ h => drift_dims h) (soundTubes 3) (by norm_num) (fun _ => ⟨rfl, rfl, rfl⟩) rfl rfl (by decide +kernel) ht (safe ht) nodes_ok _ execution ?_ ?_ (by decide)⟩
  · intro x hx
    simp only [List.head?_cons, Option.some.injEq] at hx
    subst hx
    exact starts
  · intro mh hm
    cases hm
    decide

/-- The hypotheses of `C80_formulas_partial` are met: the asserts are true in this execution. -/
theorem fine : ∀ k s, Occurs (bodyOf T sc) [(ex1, 2), (ex2, 1)] k s → k < 3 → Fine T sc sig s := by
  obtain ⟨t, ht⟩ := returned
  refine C80_formulas_partial T sc sig bloat mapH id sh rd flow 1 3 (fun _ => 1) cfg t good shapes correct complete wf dims
    (fun _ _ _ _ h => drift_dims h) (soundTubes 3) (by norm_num) (fun _ => ⟨rfl, rfl, rfl⟩) rfl rfl (by decide +kernel) ht (safe ht) nodes_ok _ execution ?_ ?_
  · intro x hx
    simp only [List.head?_cons, Option.some.injEq] at hx
    subst hx
    exact starts
  · intro mh hm
    cases hm
    decide

/-- Something is asserted of it: after two steps, the precondition of the assert on the other agent is true. -/
example : Occurs (bodyOf T sc) [(ex1, 2), (ex2, 1)] 2 (ex1.snap (bodyOf T sc) 2) ∧ TrueFor T sc sig "a" (ex1.snap (bodyOf T sc) 2) inA := by
  refine ⟨.here (by omega), ?_⟩
  have h1 : view (sig "a") "a" (ex1.snap (bodyOf T sc) 2) (.attr "ego" "agent_mode") = .str "A" := by rw [snap_eq, path1]; rfl
  simp only [TrueFor, inA, Grd.Spec.evF, Grd.Spec.evT, Grd.Spec.look, h1, Grd.Spec.holds]

end Verif.Props.AsmEx
