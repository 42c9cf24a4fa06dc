import Verif.Proofs.PartExec
import Verif.Props.Execution
import Verif.Props.Safe

/-!
C103: the tree of `verify_partitioned` and the executions of the scenario.
-/

set_option autoImplicit false
set_option linter.unusedSectionVars false

namespace Verif.Props

open Verif.Ver Verif.Ver.Spec Verif.Proofs.Ver Verif.Rect.Spec Verif.Rst.Spec Verif.Spec

section
variable {S G K V D : Type} [Field K] [LinearOrder K] [IsStrictOrderedRing K] [DecidableEq V]

theorem part_root {b : Body S G K V D} {flow : String → List V → (Nat → List K) → Prop} {dt : ℚ} {N : Nat} {d : String → Nat}
    {roundN : ℚ → ℚ} {φ : Phase K V} (hdim : ∀ a ∈ b.agents, ∀ rs, Dict.get? b.init a.1 = some rs → ∀ r ∈ rs, r.1.length = d a.1 ∧ r.2.length = d a.1)
    (hround : ∀ k : Nat, roundN ((k : ℚ) * dt) = (k : ℚ) * dt) (hs : Starts b flow φ) (hN : 0 < N) :
    PEntered b flow dt N d ⟨0, roundN 0, b, []⟩ φ 0 := by
  have h0 : roundN 0 = 0 := by
    have := hround 0
    simpa using this
  refine ⟨rfl, rfl, fun a ha => (hs a ha).2.1, ?_, hN, by simp, by simp, fun a ha => (hs a ha).1, ?_⟩
  · simp only; rw [h0]; simp
  · intro a ha
    obtain ⟨_, _, h3, r, h4, h5⟩ := hs a ha
    exact .inr ⟨rfl, [r], h4, fun r' hr' => hdim a ha _ h4 r' hr', h3, r, by simp, h5⟩

/-- **C103**, in part. Let `t` be a tree that `verify_partitioned` returns for the scenario `b`, without failed asserts, with time step `dt` and time
horizon `N * dt`. Every execution from the initial set, with urgent transitions, the last one before the horizon, and fewer phases than the maximal height,
has a path in the tree: its nodes have the modes of the phases, and their tubes contain the states of the execution at the right times.

Missing: `PartOK` must hold for all nodes. In particular nodes must be sharp: at the first step at which a guard may be satisfied, it is satisfied by all
states. Without this the claim is false (`C103_later_violated`). States are considered at the steps only. -/
theorem C103_covers_partial (M : Meaning S G K V D) (w : PWorld S K V) (b : Body S G K V D) (flow : String → List V → (Nat → List K) → Prop) (dt : ℚ) (N : Nat)
    (d : String → Nat) (cfg : Engine.Cfg (Body S G K V D) (Trace K) Hits) (t : RTree (Label (Body S G K V D) (Trace K) Hits))
    (wf : Body.WF b) (hdim : ∀ a ∈ b.agents, ∀ rs, Dict.get? b.init a.1 = some rs → ∀ r ∈ rs, r.1.length = d a.1 ∧ r.2.length = d a.1)
    (hsound : SoundTubes w.toWorld flow dt N d) (hparts : 0 < w.parts) (hdt : 0 < dt)
    (hround : ∀ k : Nat, w.round10 ((k : ℚ) * dt) = (k : ℚ) * dt ∧ cfg.round10 ((k : ℚ) * dt) = (k : ℚ) * dt ∧ cfg.roundN ((k : ℚ) * dt) = (k : ℚ) * dt)
    (hkind : cfg.kind = .ver) (hcfg : cfg.step = partStep w) (hhor : cfg.horizon = (N : ℚ) * dt)
    (hret : Returned cfg b [] t) (hsafe : ∀ u k, RTree.Below t u k → u.label.hits = .ok none)
    (hok : ∀ n full, PVisited w cfg b n → fillParts w n.body n.start (cfg.round10 (cfg.horizon - n.start)) n.trace = .ok full → PartOK M w n full)
    (ex : List (Phase K V × Nat)) (hex : Execution M w.toWorld b flow ex) (hstart : ∀ x, ex.head? = some x → Starts b flow x.1)
    (hheight : ∀ mh, cfg.maxHeight = some mh → ex.length < mh) (hlast : (ex.dropLast.map Prod.snd).sum < N) :
    ∃ us, PathIn t us ∧ Tracks (b.agents.map Prod.fst) dt N 0 ex us := by
  have hexp := Engine.returned_explores hret
  have hd : (cfg.parallel && decide (cfg.kind = .sim)) = false := by rw [hkind]; simp
  rw [hd] at hexp
  obtain ⟨φ, m, rest, rfl⟩ : ∃ φ m rest, ex = (φ, m) :: rest := by
    cases hex
    · exact ⟨_, _, _, rfl⟩
    · exact ⟨_, _, _, rfl⟩
  exact part_tracks (cfg := cfg) wf hsound hparts hdt (fun k => (hround k).1) (fun k => (hround k).2) hcfg hhor hok _ hex φ m rest rfl
    ⟨0, cfg.roundN 0, b, []⟩ 0 t .root (part_root hdim (fun k => (hround k).2.2) (hstart (φ, m) rfl) (by omega)) hexp
    (fun mh hm => by have := hheight mh hm; simpa using this) (by omega) hsafe

/-- **C103**, in part. If moreover the answers about asserts are right, all states of the execution before the horizon satisfy the asserts.

Missing: as for `C103_covers_partial`; and the preconditions of asserts do not distinguish the states of a step. -/
theorem C103_safe_partial (M : Meaning S G K V D) (w : PWorld S K V) (b : Body S G K V D) (flow : String → List V → (Nat → List K) → Prop) (dt : ℚ) (N : Nat)
    (d : String → Nat) (cfg : Engine.Cfg (Body S G K V D) (Trace K) Hits) (t : RTree (Label (Body S G K V D) (Trace K) Hits))
    (wf : Body.WF b) (hdim : ∀ a ∈ b.agents, ∀ rs, Dict.get? b.init a.1 = some rs → ∀ r ∈ rs, r.1.length = d a.1 ∧ r.2.length = d a.1)
    (hsound : SoundTubes w.toWorld flow dt N d) (hparts : 0 < w.parts) (hdt : 0 < dt)
    (hround : ∀ k : Nat, w.round10 ((k : ℚ) * dt) = (k : ℚ) * dt ∧ cfg.round10 ((k : ℚ) * dt) = (k : ℚ) * dt ∧ cfg.roundN ((k : ℚ) * dt) = (k : ℚ) * dt)
    (hkind : cfg.kind = .ver) (hcfg : cfg.step = partStep w) (hhor : cfg.horizon = (N : ℚ) * dt)
    (hret : Returned cfg b [] t) (hsafe : ∀ u k, RTree.Below t u k → u.label.hits = .ok none)
    (hok : ∀ n full, PVisited w cfg b n → fillParts w n.body n.start (cfg.round10 (cfg.horizon - n.start)) n.trace = .ok full →
      PartOK M w n full ∧ AssertsFaithful M w.toWorld n.body full)
    (ex : List (Phase K V × Nat)) (hex : Execution M w.toWorld b flow ex) (hstart : ∀ x, ex.head? = some x → Starts b flow x.1)
    (hheight : ∀ mh, cfg.maxHeight = some mh → ex.length < mh) :
    ∀ k s, Occurs b ex k s → k < N → SafeState M b s := by
  have hexp := Engine.returned_explores hret
  have hd : (cfg.parallel && decide (cfg.kind = .sim)) = false := by rw [hkind]; simp
  rw [hd] at hexp
  obtain ⟨φ, m, rest, rfl⟩ : ∃ φ m rest, ex = (φ, m) :: rest := by
    cases hex
    · exact ⟨_, _, _, rfl⟩
    · exact ⟨_, _, _, rfl⟩
  intro k s hocc hk
  exact part_safe (cfg := cfg) wf hsound hparts hdt (fun k => (hround k).1) (fun k => (hround k).2) hcfg hhor hok _ hex φ m rest rfl
    ⟨0, cfg.roundN 0, b, []⟩ 0 t .root (part_root hdim (fun k => (hround k).2.2) (hstart (φ, m) rfl) (by omega)) hexp
    (fun mh hm => by have := hheight mh hm; simpa using this) hsafe k s hocc (by omega)

end

/-! ### cases -/

namespace PartEx
open VerEx ExecEx

/-- The agent `a` moves `v` units per step in mode `A`; everything else stands still. Rectangles are cut in two. -/
def pw (v : ℚ) : PWorld Sn ℚ String :=
  { sense := sense, bloat := fun a m c remain => drift (v * speed a m) c remain.num.toNat, segLen := 1000, mapH := open_, unsafeContinue := false,
    round10 := id, sh := fun _ => [], rd := rd, parts := 2, dims := none, sensedCont := fun _ => [] }

def flow (v : ℚ) (a : String) (m : List String) (ρ : Nat → List ℚ) : Prop := ∀ k, ρ k = (ρ 0).map (· + v * speed a m * (k : ℚ))

theorem soundTubes (v : ℚ) (N : Nat) : SoundTubes (pw v).toWorld (flow v) 1 N (fun _ => 1) := by
  have hlen : ∀ k : Nat, (((N - k : Nat) : ℚ) * 1).num.toNat = N - k := by
    intro k; rw [mul_one, Rat.num_natCast]; rfl
  refine ⟨?_, ?_, ?_, ?_⟩
  · intro a m c k _ _
    simp only [pw, drift, hlen, List.length_map, List.length_range]
  · intro a m c k j s _ _ hs
    simp only [pw, drift, hlen] at hs
    rw [List.getElem?_map] at hs
    obtain ⟨i, hi, rfl⟩ := Option.map_eq_some_iff.1 hs
    obtain ⟨hj, hij⟩ := List.getElem?_eq_some_iff.1 hi
    rw [List.getElem_range] at hij
    subst hij
    simp
  · intro a m c k h1 h2 s hs
    simp only [pw, drift] at hs
    obtain ⟨i, -, rfl⟩ := List.mem_map.1 hs
    simp [h1, h2]
  · intro a m c k j s ρ hρ hin hs
    simp only [pw, drift] at hs
    rw [List.getElem?_map] at hs
    obtain ⟨i, hi, rfl⟩ := Option.map_eq_some_iff.1 hs
    obtain ⟨hj, hij⟩ := List.getElem?_eq_some_iff.1 hi
    rw [List.getElem_range] at hij
    subst hij
    rw [hρ]
    constructor
    · dsimp only
      rw [List.forall₂_map_left_iff, List.forall₂_map_right_iff]
      exact hin.1.imp (fun a b h => by linarith)
    · dsimp only
      rw [List.forall₂_map_left_iff, List.forall₂_map_right_iff]
      exact hin.2.imp (fun a b h => by linarith)

def cfg (v : ℚ) : Engine.Cfg (Body Sn Unit ℚ String Unit) (Trace ℚ) Hits :=
  { kind := .ver, parallel := false, ahead := 1, maxHeight := some 4, horizon := 3, round10 := id, roundN := id, step := partStep (pw v), noHits := .ok none }

theorem returned (v : ℚ) (b : Body Sn Unit ℚ String Unit) : ∃ t, Returned (cfg v) b [] t := by
  obtain ⟨N, hN⟩ := C08_terminates (cfg v) (by show (0 : Nat) < 1; decide) 4 rfl b []
  obtain ⟨s, hs⟩ := hN (List.replicate N 0) (by simp)
  obtain ⟨g, hg, _⟩ := C07_loop_computes_exploration (cfg v) (by show (0 : Nat) < 1; decide) b [] _ s hs
  exact ⟨g.map Label.ofRec, by show (0 : Nat) < 1; decide, _, s, g, hs, hg, rfl⟩

variable {A : List (Assertion Sn)} {paths : List (Path Sn Unit ℚ String Unit)} {b' : Body Sn Unit ℚ String Unit}

/-- Answers do not depend on how tubes are computed. -/
theorem faithful (v : ℚ) (hb : b'.agents = (body A paths).agents) (hp : Intervals paths) (tr : Trace ℚ) : Faithful meaning (pw v).toWorld b' tr := by
  have h := faithful' hb hp tr
  exact ⟨h.never, h.maybe, h.range, h.disc⟩

theorem ok_resettable (v : ℚ) (hb : b'.agents = (body A paths).agents)
    (hp : ∀ p ∈ paths, (∃ lo hi, p = path "x" lo hi (.arith (.atom ['1', '0']))) ∨ ∃ lo hi v, p = path "agent_mode" lo hi (.const v))
    (tr : Trace ℚ) : Resettable (pw v).toWorld b' tr := ExecEx.resettable' hb hp tr

theorem partFaithful (v : ℚ) (hb : b'.agents = (body A paths).agents)
    (hp : ∀ p ∈ paths, (∃ lo hi, p = path "x" lo hi (.arith (.atom ['1', '0']))) ∨ ∃ lo hi v, p = path "agent_mode" lo hi (.const v))
    (tr : Trace ℚ) : PartFaithful meaning (pw v) b' tr := by
  have hrd : rd ['1', '0'] = some 10 := by decide +kernel
  refine ⟨fun a dl p i snap sd dest _ _ _ _ t => rfl, fun a dl p i snap sd dest e hc hm _ _ hv _ => ?_⟩
  obtain ⟨rfl, rfl⟩ := ctl hb hc
  rcases hp p hm with ⟨lo, hi, rfl⟩ | ⟨lo, hi, v, rfl⟩
  · cases hv
    refine ⟨⟨by simp [pw], by simp [pw], by simp [pw], by simp [pw]⟩, trivial, fun vars hv => ⟨⟨10, ?_⟩, by simp [pw]⟩⟩
    have : vars ['1', '0'] = none := hv ['1', '0']
    simp only [value, this, Option.none_or]
    exact hrd
  · cases hv

theorem okP_resets : ∀ p ∈ okP, (∃ lo hi, p = path "x" lo hi (.arith (.atom ['1', '0']))) ∨ ∃ lo hi v, p = path "agent_mode" lo hi (.const v) := by
  intro p hp
  simp only [okP, List.mem_cons, List.not_mem_nil, or_false] at hp
  rcases hp with rfl | rfl
  · exact .inr ⟨_, _, _, rfl⟩
  · exact .inl ⟨_, _, rfl⟩

/-- Children have the agents of the node. -/
theorem next_agents {S G K V D : Type} [Field K] [LinearOrder K] [DecidableEq V] {w : PWorld S K V} {n : Engine.Work (Body S G K V D) (Trace K)} {remain : ℚ}
    {res : Engine.Result (Body S G K V D) (Trace K) (Option (Dict String (List String)))} (h : verifyPart w n remain = .ok res) :
    ∀ c ∈ res.next, c.body.agents = n.body.agents ∧ c.body.static = n.body.static := by
  obtain ⟨full, _, h⟩ := (bind_ok_iff _ _ _).1 h
  obtain ⟨g, _, h⟩ := (bind_ok_iff _ _ _).1 h
  match g, h with
  | .asserts a idx, h =>
    dsimp only at h
    split at h
    · cases h; simp
    · obtain ⟨cut, _, rfl⟩ := (map_ok_iff _ _ _).1 h
      simp
  | .trans [], h =>
    injection h with h; subst h; simp
  | .trans (t :: ts), h =>
    obtain ⟨cs, hcs, h⟩ := (bind_ok_iff _ _ _).1 h
    obtain ⟨cut, _, rfl⟩ := (map_ok_iff _ _ _).1 h
    intro c hc
    obtain ⟨x, hx, rfl⟩ := List.mem_map.1 hc
    obtain ⟨tr, -, htr⟩ := forall₂_mem_right ((mapM_ok_iff _ _ _).1 hcs) hx
    unfold partChild at htr
    split at htr
    · obtain ⟨rs, _, htr⟩ := (bind_ok_iff _ _ _).1 htr
      obtain ⟨c', hc', rfl⟩ := (map_ok_iff _ _ _).1 htr
      obtain ⟨trunc, h1, h⟩ := (bind_ok_iff _ _ _).1 hc'
      obtain ⟨t0, h2, h⟩ := (bind_ok_iff _ _ _).1 h
      obtain ⟨it, h3, rfl⟩ := (map_ok_iff _ _ _).1 h
      exact ⟨rfl, rfl⟩
    · cases htr

/-! #### a case that meets the hypotheses: two units per step, so that all states enter the guard at the same step -/

def child : Engine.Work (Body Sn Unit ℚ String Unit) (Trace ℚ) :=
  ⟨1, 1, { body okA okP with mode := [("a", ["B"]), ("b", ["A"])], init := [("a", [([10], [10]), ([10], [10])]), ("b", [([5], [6])])] },
    [("b", [seg 1 5 6, seg 2 5 6])]⟩

def rootFull : Trace ℚ := [("a", [seg 0 0 1, seg 1 2 3, seg 2 4 5]), ("b", [seg 0 5 6, seg 1 5 6, seg 2 5 6])]
def childFull : Trace ℚ := [("b", [seg 1 5 6, seg 2 5 6]), ("a", [seg 1 10 10, seg 2 10 10])]

theorem root_run : (verifyPart (pw 2) root 3).map view = .ok ⟨none, [⟨1, child.body.mode, child.body.init, child.trace⟩],
    [("a", [seg 0 0 1, seg 1 2 3]), ("b", [seg 0 5 6, seg 1 5 6])]⟩ := by
  decide +kernel

theorem child_run : (verifyPart (pw 2) child 2).map view = .ok ⟨none, [], childFull⟩ := by
  decide +kernel

theorem root_fill : fillParts (pw 2) root.body 0 3 [] = .ok rootFull := by decide +kernel
theorem child_fill : fillParts (pw 2) child.body 1 2 child.trace = .ok childFull := by decide +kernel

theorem visited {n : Engine.Work (Body Sn Unit ℚ String Unit) (Trace ℚ)} (h : PVisited (pw 2) (cfg 2) (body okA okP) n) : n = root ∨ n = child := by
  induction h with
  | root => exact .inl rfl
  | @child n c _ hc ih =>
    right
    rcases ih with rfl | rfl
    · have e : (cfg 2).round10 ((cfg 2).horizon - root.start) = 3 := by decide +kernel
      rw [e] at hc
      obtain ⟨res, h1, _, _, h4⟩ := of_pview root_run
      simp only [partStep, h1] at hc
      have h5 := h4 c hc
      obtain ⟨h6, h7⟩ := next_agents h1 c hc
      simp only [List.mem_singleton, ChildView.mk.injEq] at h5
      obtain ⟨e1, e2, e3, e4⟩ := h5
      obtain ⟨start, bd, tr⟩ := c
      obtain ⟨ags, md, ini, st⟩ := bd
      simp only at e1 e2 e3 e4 h6 h7
      subst e1 e2 e3 e4 h6 h7
      rfl
    · have e : (cfg 2).round10 ((cfg 2).horizon - child.start) = 2 := by decide +kernel
      rw [e] at hc
      obtain ⟨res, h1, _, _, h4⟩ := of_pview child_run
      simp only [partStep, h1] at hc
      exact absurd (h4 c hc) (by simp)

theorem asked2 (hb : b'.agents = (body A paths).agents) {tr : Trace ℚ} {i : Nat} {a : String} {p : Path Sn Unit ℚ String Unit} {r : Bool × Bool}
    (h : Asked (pw 2).toWorld b' tr i a p r) : a = "a" ∧ p ∈ paths ∧ ∃ segs seg, Dict.get? tr "a" = some segs ∧ segs[i]? = some seg ∧ p.check () seg.box = .ok r :=
  ExecEx.asked' hb (by exact h)

theorem okP_one : ∀ p ∈ okP, ∀ q ∈ okP, p.var = q.var → p = q := by
  intro p hp q hq h
  simp only [okP, List.mem_cons, List.not_mem_nil, or_false] at hp hq
  rcases hp with rfl | rfl <;> rcases hq with rfl | rfl
  · rfl
  · exact absurd h (by decide)
  · exact absurd h (by decide)
  · rfl

theorem okP_same : ∀ p ∈ okP, ∃ var val, p = path var (3/2) 5 val := by
  intro p hp
  simp only [okP, List.mem_cons, List.not_mem_nil, or_false] at hp
  rcases hp with rfl | rfl
  · exact ⟨_, _, rfl⟩
  · exact ⟨_, _, rfl⟩

theorem part_ok (hb : b'.agents = (body okA okP).agents) {h : Nat} {st : ℚ} {given tr : Trace ℚ}
    (hsharp : ∀ (i : Nat) (segs : Tube ℚ) (sg : Seg ℚ) (c : Bool), Dict.get? tr "a" = some segs → segs[i]? = some sg →
      inInterval (3/2) 5 sg.box = .ok (true, c) → c = true) : PartOK meaning (pw 2) ⟨h, st, b', given⟩ tr := by
  refine ⟨faithful 2 hb okP_intervals tr, fun j a p hc => contained' hb okP_intervals tr j a p hc, partFaithful 2 hb okP_resets tr,
    ok_resettable 2 hb okP_resets tr, ?_, fun i snap a dl dest post _ => alone' hb (3/2) 5 okP_same tr i snap a dl dest post, ?_, ?_⟩
  · rintro i a p ⟨c, hit⟩ _ s hs
    have hit' := hit
    obtain ⟨dl, _, _, _, hc, hm, _⟩ := hit
    obtain ⟨rfl, hp, segs, sg, h1, h2, h3⟩ := asked2 hb hit'
    rw [okP_check hp] at h3
    have := hsharp i segs sg c h1 h2 h3
    subst this
    exact ⟨"a", dl, p, hc, hm, contained' hb okP_intervals tr i "a" p ⟨true, hit'⟩ s hs⟩
  · intro i a dl _ hc p hp q hq hv _ _
    obtain ⟨rfl, rfl⟩ := ctl hb hc
    exact okP_one p hp q hq hv
  · intro a dl _ ds hds
    cases hds

theorem root_ok : PartOK meaning (pw 2) root rootFull := by
  refine part_ok (b' := root.body) (h := 0) (st := 0) (given := []) rfl ?_
  intro i segs sg c h1 h2 h3
  have : Dict.get? rootFull "a" = some [seg 0 0 1, seg 1 2 3, seg 2 4 5] := by decide +kernel
  rw [this] at h1
  cases h1
  match i with
  | 0 =>
    cases h2
    have : inInterval (3/2) 5 (seg 0 0 1).box = .ok (false, false) := by decide +kernel
    rw [this] at h3; cases h3
  | 1 =>
    cases h2
    have : inInterval (3/2) 5 (seg 1 2 3).box = .ok (true, true) := by decide +kernel
    rw [this] at h3; cases h3; rfl
  | 2 =>
    cases h2
    have : inInterval (3/2) 5 (seg 2 4 5).box = .ok (true, true) := by decide +kernel
    rw [this] at h3; cases h3; rfl
  | i + 3 => simp at h2

theorem child_ok : PartOK meaning (pw 2) child childFull := by
  refine part_ok (b' := child.body) (h := 1) (st := 1) (given := child.trace) rfl ?_
  intro i segs sg c h1 h2 h3
  have : Dict.get? childFull "a" = some [seg 1 10 10, seg 2 10 10] := by decide +kernel
  rw [this] at h1
  cases h1
  have hs : sg.box = ([10], [10]) := by
    match i with
    | 0 => cases h2; rfl
    | 1 => cases h2; rfl
    | i + 2 => simp at h2
  rw [hs] at h3
  have : inInterval (3/2) 5 ([10], [10]) = .ok (false, false) := by decide +kernel
  rw [this] at h3
  cases h3

/-- `x` is 1/4 and 9/4; then the agent switches, and `x` is 10. -/
def ex1 : Phase ℚ String := ⟨fun _ => ["A"], fun a k => if a = "a" then [1/4 + 2 * (k : ℚ)] else [11/2]⟩
def ex2 : Phase ℚ String := ⟨fun a => if a = "a" then ["B"] else ["A"], fun a _ => if a = "a" then [10] else [11/2]⟩

/-- The hypotheses of the theorems are met by an execution that switches. -/
theorem ok_case : ∃ t, Returned (cfg 2) (body okA okP) [] t ∧ (∀ u k, RTree.Below t u k → u.label.hits = .ok none) ∧
    (∀ n full, PVisited (pw 2) (cfg 2) (body okA okP) n →
      fillParts (pw 2) n.body n.start ((cfg 2).round10 ((cfg 2).horizon - n.start)) n.trace = .ok full → PartOK meaning (pw 2) n full ∧
        AssertsFaithful meaning (pw 2).toWorld n.body full) ∧
    Execution meaning (pw 2).toWorld (body okA okP) (flow 2) [(ex1, 1), (ex2, 1)] ∧ Starts (body okA okP) (flow 2) ex1 := by
  obtain ⟨t, ht⟩ := returned 2 (body okA okP)
  refine ⟨t, ht, ?_, ?_, ?_, ?_⟩
  · intro u k hu
    have hx := Engine.returned_explores ht
    obtain ⟨st', b', tr', h1, h2⟩ := Engine.explores_below_inv (I := fun n => PVisited (pw 2) (cfg 2) (body okA okP) n)
      (fun n _ hn c hc => .child hn hc) hu hx .root
    obtain ⟨-, -, -, h3 | ⟨-, -, h3, -⟩⟩ := Engine.explores_node h1
    · exact h3.2.2.2
    · rw [h3]
      rcases visited h2 with e | e
      · rw [e]
        obtain ⟨res, r1, r2, -⟩ := of_pview root_run
        have e3 : (cfg 2).round10 ((cfg 2).horizon - root.start) = 3 := by decide +kernel
        show (partStep (pw 2) root ((cfg 2).round10 ((cfg 2).horizon - root.start))).hits = _
        rw [e3, partStep, r1]
        show Except.ok res.hits = _
        rw [r2]
      · rw [e]
        obtain ⟨res, r1, r2, -⟩ := of_pview child_run
        have e3 : (cfg 2).round10 ((cfg 2).horizon - child.start) = 2 := by decide +kernel
        show (partStep (pw 2) child ((cfg 2).round10 ((cfg 2).horizon - child.start))).hits = _
        rw [e3, partStep, r1]
        show Except.ok res.hits = _
        rw [r2]
  · intro n full hn hf
    have has : ∀ b' : Body Sn Unit ℚ String Unit, b'.agents = (body okA okP).agents → AssertsFaithful meaning (pw 2).toWorld b' full := by
      intro b' hb
      have h := asserts_faithful (A := okA) (paths := okP) (fun x hx => ⟨-1, 11, by simpa [okA] using hx⟩) hb full
      exact ⟨h.cond, h.pre⟩
    rcases visited hn with rfl | rfl
    · have e3 : (cfg 2).round10 ((cfg 2).horizon - root.start) = 3 := by decide +kernel
      rw [e3] at hf
      have := root_fill.symm.trans hf
      cases this
      exact ⟨root_ok, has _ rfl⟩
    · have e3 : (cfg 2).round10 ((cfg 2).horizon - child.start) = 2 := by decide +kernel
      rw [e3] at hf
      have := child_fill.symm.trans hf
      cases this
      exact ⟨child_ok, has _ rfl⟩
  · have hq1 : Quiet meaning (body okA okP) ex1 1 := by
      intro k a dl p hk hc hp hh
      obtain ⟨rfl, rfl⟩ := controlled hc
      have : p.check () = inInterval (3/2) 5 := okP_check hp
      simp only [meaning, this] at hh
      obtain rfl : k = 0 := by omega
      exact absurd hh (by decide +kernel)
    have hq2 : Quiet meaning (body okA okP) ex2 1 := by
      intro k a dl p hk hc hp hh
      obtain ⟨rfl, rfl⟩ := controlled hc
      have : p.check () = inInterval (3/2) 5 := okP_check hp
      simp only [meaning, this] at hh
      obtain rfl : k = 0 := by omega
      exact absurd hh (by decide +kernel)
    refine .switch hq1 ⟨"a", logic okA okP, ?_, ?_, ?_⟩ (.last hq2)
    · refine ⟨[9/4], ["A"], [], controlled_a _ _, ?_, rfl, rfl, ⟨fun v => if v = "agent_mode" then some (path "agent_mode" (3/2) 5 (.const "B"))
        else if v = "x" then some (path "x" (3/2) 5 (.arith (.atom ['1', '0']))) else none, ?_, ?_, ⟨"x", by decide⟩, rfl, rfl, ?_, ?_⟩,
        permits' (A := okA) (paths := okP) rfl (controlled_a _ _) _ _⟩
      · have : (1/4 + 2 * ((1 : Nat) : ℚ)) = 9/4 := by norm_num
        refine List.mem_map.2 ⟨("a", logic okA okP), by simp [body], ?_⟩
        refine Prod.ext rfl (Prod.ext ?_ (Prod.ext rfl rfl))
        show (if "a" = "a" then [1/4 + 2 * ((1 : Nat) : ℚ)] else [11/2]) = [9/4]
        rw [if_pos rfl, this]
      · have hh : ∀ p ∈ okP, meaning.holds p "a" (ex1.snap (body okA okP) 1) := by
          intro p hp
          simp only [meaning, okP_check hp]
          decide +kernel
        intro v p hv
        dsimp only at hv
        by_cases e : v = "agent_mode"
        · rw [if_pos e] at hv
          cases hv
          exact ⟨by simp [logic, okP], e.symm, hh _ (by simp [okP])⟩
        · rw [if_neg e] at hv
          by_cases e' : v = "x"
          · rw [if_pos e'] at hv
            cases hv
            exact ⟨by simp [logic, okP], e'.symm, hh _ (by simp [okP])⟩
          · rw [if_neg e'] at hv; cases hv
      · intro p hp _
        simp only [logic, okP, List.mem_cons, List.not_mem_nil, or_false] at hp
        rcases hp with rfl | rfl <;> decide
      · intro i v z hv hz
        match i with
        | 0 =>
          simp only [logic, List.getElem?_cons_zero, Option.some.injEq] at hv
          subst hv
          have : z = "B" := by simpa [ex2] using hz.symm
          subst this
          exact .const _
        | i + 1 => simp [logic] at hv
      · intro i v hv
        match i with
        | 0 =>
          simp only [logic, List.getElem?_cons_zero, Option.some.injEq] at hv
          subst hv
          refine ⟨_, rfl, 10, rfl, ?_⟩
          have hrd : rd ['1', '0'] = some 10 := by decide +kernel
          exact hrd
        | i + 1 => simp [logic] at hv
    · intro k
      have : speed "a" ["B"] = 0 := by decide +kernel
      simp [this, ex2]
    · intro o ho
      exact ⟨by simp [ex2, ex1, ho], fun k => by simp [ex2, ex1, ho]⟩
  · intro a ha
    simp only [body, List.mem_cons, List.not_mem_nil, or_false] at ha
    rcases ha with rfl | rfl
    · exact ⟨rfl, rfl, fun k => by simp [ex1, speed], ([0], [1]), rfl, inside1 _ _ _ (by norm_num) (by norm_num)⟩
    · exact ⟨rfl, rfl, fun k => by simp [ex1, speed], ([5], [6]), rfl, inside1 _ _ _ (by norm_num) (by norm_num)⟩

theorem dims_ok : ∀ a ∈ (body okA okP).agents, ∀ rs, Dict.get? (body okA okP).init a.1 = some rs → ∀ r ∈ rs, r.1.length = 1 ∧ r.2.length = 1 := by
  intro a ha rs hrs r hr
  simp only [body, List.mem_cons, List.not_mem_nil, or_false] at ha hrs
  rcases ha with rfl | rfl
  · cases hrs; rw [List.mem_singleton] at hr; subst hr; exact ⟨rfl, rfl⟩
  · cases hrs; rw [List.mem_singleton] at hr; subst hr; exact ⟨rfl, rfl⟩

/-- So this execution has a path in the tree, and its states satisfy the assert. -/
example : ∃ t, Returned (cfg 2) (body okA okP) [] t ∧ (∃ us, PathIn t us ∧ Tracks ["a", "b"] 1 3 0 [(ex1, 1), (ex2, 1)] us) ∧
    ∀ k s, Occurs (body okA okP) [(ex1, 1), (ex2, 1)] k s → k < 3 → SafeState meaning (body okA okP) s := by
  obtain ⟨t, h1, h2, h3, h4, h5⟩ := ok_case
  have hst : ∀ x, [(ex1, 1), (ex2, 1)].head? = some x → Starts (body okA okP) (flow 2) x.1 := by
    intro x hx
    simp only [List.head?_cons, Option.some.injEq] at hx
    subst hx
    exact h5
  have hhe : ∀ mh, (cfg 2).maxHeight = some mh → [(ex1, 1), (ex2, 1)].length < mh := by
    intro mh hm
    cases hm
    show (2 : Nat) < 4
    omega
  exact ⟨t, h1, C103_covers_partial meaning (pw 2) (body okA okP) (flow 2) 1 3 (fun _ => 1) (cfg 2) t (wf _ _) dims_ok (soundTubes 2 3) (by decide)
    (by norm_num) (fun k => ⟨rfl, rfl, rfl⟩) rfl rfl (by decide +kernel) h1 h2 (fun n full hv hf => (h3 n full hv hf).1) _ h4 hst hhe (by decide),
    C103_safe_partial meaning (pw 2) (body okA okP) (flow 2) 1 3 (fun _ => 1) (cfg 2) t (wf _ _) dims_ok (soundTubes 2 3) (by decide)
      (by norm_num) (fun k => ⟨rfl, rfl, rfl⟩) rfl rfl (by decide +kernel) h1 h2 h3 _ h4 hst hhe⟩

/-! #### a violation: one unit per step, so that only some states enter the guard at step 1 -/

/-- Between 3/2 and 5, the mode becomes `B`. -/
def lateP : List (Path Sn Unit ℚ String Unit) := [path "agent_mode" (3/2) 5 (.const "B")]

def lateKid : Engine.Work (Body Sn Unit ℚ String Unit) (Trace ℚ) :=
  ⟨1, 1, { body [] lateP with mode := [("a", ["B"]), ("b", ["A"])], init := [("a", [([1], [3/2]), ([3/2], [2])]), ("b", [([5], [6])])] },
    [("b", [seg 1 5 6, seg 2 5 6])]⟩

theorem late_run : (verifyPart (pw 1) ⟨0, 0, body [] lateP, []⟩ 3).map view = .ok ⟨none,
    [⟨1, lateKid.body.mode, lateKid.body.init, lateKid.trace⟩],
    [("a", [seg 0 0 1, seg 1 1 2, seg 2 2 3]), ("b", [seg 0 5 6, seg 1 5 6, seg 2 5 6])]⟩ := by
  decide +kernel

theorem lateKid_run : (verifyPart (pw 1) lateKid 2).map (fun r => (r.hits, r.trace)) = .ok (none,
    [("a", [seg 1 1 2, seg 2 1 2]), ("b", [seg 1 5 6, seg 2 5 6])]) := by
  decide +kernel

/-- `x` is 1/4, 5/4, 9/4: the guard is not true before step 2. Then the mode becomes `B`. -/
def late : Phase ℚ String := ⟨fun _ => ["A"], fun a k => if a = "a" then [1/4 + (k : ℚ)] else [11/2]⟩
def late2 : Phase ℚ String := ⟨fun a => if a = "a" then ["B"] else ["A"], fun a _ => if a = "a" then [9/4] else [11/2]⟩

theorem late_execution : Execution meaning (pw 1).toWorld (body [] lateP) (flow 1) [(late, 2), (late2, 0)] := by
  refine .switch ?_ ⟨"a", logic [] lateP, ⟨[9/4], ["A"], [], controlled_a _ _, ?_, rfl, rfl,
    ⟨fun v => if v = "agent_mode" then some (path "agent_mode" (3/2) 5 (.const "B")) else none, ?_, ?_, ⟨"agent_mode", by decide⟩, rfl, rfl, ?_, ?_⟩,
    permits' (A := []) (paths := lateP) rfl (controlled_a _ _) _ _⟩, ?_, ?_⟩ (.last (fun k a dl p hk => by omega))
  · intro k a dl p hk hc hp hh
    obtain ⟨rfl, rfl⟩ := controlled hc
    simp only [logic, lateP, List.mem_singleton] at hp
    subst hp
    have hk' : k = 0 ∨ k = 1 := by omega
    rcases hk' with rfl | rfl
    · exact absurd (show inInterval (3/2) 5 (point "a" (late.snap (body [] lateP) 0)) = .ok (true, true) from hh) (by decide +kernel)
    · exact absurd (show inInterval (3/2) 5 (point "a" (late.snap (body [] lateP) 1)) = .ok (true, true) from hh) (by decide +kernel)
  · have : (1/4 + ((2 : Nat) : ℚ)) = 9/4 := by norm_num
    refine List.mem_map.2 ⟨("a", logic [] lateP), by simp [body], ?_⟩
    refine Prod.ext rfl (Prod.ext ?_ (Prod.ext rfl rfl))
    show (if "a" = "a" then [1/4 + ((2 : Nat) : ℚ)] else [11/2]) = [9/4]
    rw [if_pos rfl, this]
  · intro v p hv
    dsimp only at hv
    by_cases e : v = "agent_mode"
    · rw [if_pos e] at hv
      cases hv
      refine ⟨by simp [logic, lateP], e.symm, ?_⟩
      show inInterval (3/2) 5 (point "a" (late.snap (body [] lateP) 2)) = .ok (true, true)
      decide +kernel
    · rw [if_neg e] at hv; cases hv
  · intro p hp _
    simp only [logic, lateP, List.mem_singleton] at hp
    subst hp
    decide
  · intro i v z hv hz
    match i with
    | 0 =>
      simp only [logic, List.getElem?_cons_zero, Option.some.injEq] at hv
      subst hv
      have : z = "B" := by simpa [late2] using hz.symm
      subst this
      exact .const _
    | i + 1 => simp [logic] at hv
  · intro i v hv
    match i with
    | 0 =>
      simp only [logic, List.getElem?_cons_zero, Option.some.injEq] at hv
      subst hv
      rfl
    | i + 1 => simp [logic] at hv
  · intro k
    have : speed "a" ["B"] = 0 := by decide +kernel
    simp [this, late2]
  · intro o ho
    exact ⟨by simp [late2, late, ho], fun k => by simp [late2, late, ho]⟩

end PartEx

open VerEx ExecEx in
/-- **Violation of C103.** At step 1 the guard may be satisfied, and is by some states only. `verify_partitioned` makes one child, which begins in
the tube at step 1, although the guard may be satisfied at step 2 too: the execution of `x = 1/4`, which satisfies the guard at step 2 only, is in no path
of the tree. -/
theorem C103_later_violated : ∃ (b : Body Sn Unit ℚ String Unit) (ex : List (Phase ℚ String × Nat)) (t : RTree (Label (Body Sn Unit ℚ String Unit) (Trace ℚ) Hits)),
    Returned (PartEx.cfg 1) b [] t ∧ (∀ u, u.label = t.label ∨ u ∈ t.kids → u.label.hits = .ok none) ∧ Body.WF b ∧
    SoundTubes (PartEx.pw 1).toWorld (PartEx.flow 1) 1 3 (fun _ => 1) ∧ (PartEx.cfg 1).step = partStep (PartEx.pw 1) ∧
    (PartEx.cfg 1).horizon = ((3 : Nat) : ℚ) * 1 ∧ Execution meaning (PartEx.pw 1).toWorld b (PartEx.flow 1) ex ∧
    (∀ x, ex.head? = some x → Starts b (PartEx.flow 1) x.1) ∧ (ex.dropLast.map Prod.snd).sum < 3 ∧
    (∀ tr, Faithful meaning (PartEx.pw 1).toWorld b tr) ∧
    ¬ ∃ us, PathIn t us ∧ Tracks (b.agents.map Prod.fst) 1 3 0 ex us := by
  obtain ⟨t, ht⟩ := PartEx.returned 1 (body [] PartEx.lateP)
  have hx := Engine.returned_explores ht
  obtain ⟨-, -, -, h3 | ⟨-, h4, h3, h5⟩⟩ := Engine.explores_node hx
  · refine absurd ⟨?_, ?_⟩ h3.1
    · intro m hm; cases hm; omega
    · show 0 < (PartEx.cfg 1).round10 ((PartEx.cfg 1).horizon - 0)
      decide +kernel
  have e3 : (PartEx.cfg 1).round10 ((PartEx.cfg 1).horizon - 0) = 3 := by decide +kernel
  obtain ⟨res, r1, r2, r3, r4⟩ := of_pview PartEx.late_run
  have h3' : t.label.hits = (partStep (PartEx.pw 1) ⟨0, 0, body [] PartEx.lateP, []⟩ ((PartEx.cfg 1).round10 ((PartEx.cfg 1).horizon - 0))).hits := h3
  have h5' : List.Forall₂ _ (partStep (PartEx.pw 1) ⟨0, 0, body [] PartEx.lateP, []⟩ ((PartEx.cfg 1).round10 ((PartEx.cfg 1).horizon - 0))).next t.kids := h5
  rw [e3, partStep, r1] at h3' h5'
  dsimp only at h3' h5'
  rw [r2] at h3'
  -- the kids
  have hkid : ∀ u ∈ t.kids, u.label.hits = .ok none ∧ u.label.trace = [("a", [seg 1 1 2, seg 2 1 2]), ("b", [seg 1 5 6, seg 2 5 6])] := by
    intro u hu
    obtain ⟨c, hc, hcu⟩ := forall₂_mem_right h5' hu
    have e := r4 c hc
    obtain ⟨h6, h7⟩ := PartEx.next_agents r1 c hc
    simp only [List.mem_singleton, ChildView.mk.injEq] at e
    obtain ⟨e1, e2, e3, e4⟩ := e
    obtain ⟨start, bd, tr⟩ := c
    obtain ⟨ags, md, ini, st⟩ := bd
    simp only at e1 e2 e3 e4 h6 h7
    subst e1 e2 e3 e4 h6 h7
    obtain ⟨res', q1, q2⟩ := (map_ok_iff _ _ _).1 PartEx.lateKid_run
    have qa := congrArg Prod.fst q2
    have qb := congrArg Prod.snd q2
    dsimp only at qa qb
    obtain ⟨-, -, -, g3 | ⟨-, g4, g3, -⟩⟩ := Engine.explores_node hcu
    · refine absurd ⟨?_, ?_⟩ g3.1
      · intro m hm; cases hm; omega
      · show 0 < (PartEx.cfg 1).round10 ((PartEx.cfg 1).horizon - 1)
        decide +kernel
    have e4 : (PartEx.cfg 1).round10 ((PartEx.cfg 1).horizon - 1) = 2 := by decide +kernel
    have g3' : u.label.hits = (partStep (PartEx.pw 1) PartEx.lateKid ((PartEx.cfg 1).round10 ((PartEx.cfg 1).horizon - 1))).hits := g3
    have g4' : u.label.trace = (partStep (PartEx.pw 1) PartEx.lateKid ((PartEx.cfg 1).round10 ((PartEx.cfg 1).horizon - 1))).trace := g4
    rw [e4, partStep, q1] at g3' g4'
    dsimp only at g3' g4'
    rw [qa] at g3'
    rw [qb] at g4'
    exact ⟨g3', g4'⟩
  have hint : Intervals PartEx.lateP := by
    intro p hp
    simp only [PartEx.lateP, List.mem_singleton] at hp
    exact ⟨_, _, _, _, hp⟩
  have hfl : ∀ (a : String), PartEx.flow 1 a ["A"] (PartEx.late.path a) := by
    intro a k
    by_cases h : a = "a" <;> simp [PartEx.late, speed, h]
  refine ⟨body [] PartEx.lateP, _, t, ht, ?_, wf _ _, PartEx.soundTubes 1 3, rfl, by decide +kernel, PartEx.late_execution, ?_, by decide,
    fun tr => PartEx.faithful 1 rfl hint tr, ?_⟩
  · rintro u (hu | hu)
    · rw [hu]; exact h3'
    · exact (hkid u hu).1
  · rintro x hx
    simp only [List.head?_cons, Option.some.injEq] at hx
    subst hx
    intro a ha
    simp only [body, List.mem_cons, List.not_mem_nil, or_false] at ha
    rcases ha with rfl | rfl
    · exact ⟨rfl, rfl, hfl "a", ([0], [1]), rfl, inside1 _ _ _ (by norm_num) (by norm_num)⟩
    · exact ⟨rfl, rfl, hfl "b", ([5], [6]), rfl, inside1 _ _ _ (by norm_num) (by norm_num)⟩
  · rintro ⟨us, hp, htr⟩
    cases htr with
    | @cons _ _ _ _ us' u hm hk hr =>
      cases hr with
      | @cons _ _ _ _ us'' u' hm' hk' hr' =>
        cases hr'
        cases hp with
        | down hu hp' =>
          cases hp' with
          | down _ hp'' => cases hp''
          | root =>
            obtain ⟨segs, hs, s, hs', ht0, hin⟩ := hk' 0 (by omega) (by omega) "a" (by simp [body])
            rw [(hkid _ hu).2] at hs
            simp only [Dict.get?_cons, if_true, Option.some.injEq] at hs
            subst hs
            simp only [List.mem_cons, List.not_mem_nil, or_false] at hs'
            have hb : s.box = ([1], [2]) := by rcases hs' with rfl | rfl <;> rfl
            rw [hb] at hin
            obtain ⟨_, g⟩ := hin
            cases g with
            | cons g _ => norm_num at g

end Verif.Props
