import Verif.Proofs.Execution2
import Verif.Props.VerifierEx
import Verif.Props.Verifier2

/-!
C55: the tree of reachable sets covers the executions of the scenario, phase by phase.
-/

set_option autoImplicit false
set_option linter.unusedSectionVars false

namespace Verif.Props

open Verif.Ver Verif.Ver.Spec Verif.Proofs.Ver Verif.Rect.Spec Verif.Rst.Spec Verif.Spec

section
variable {S G K V D : Type} [Field K] [LinearOrder K] [DecidableEq V]

/-- **C55**, in part. Let `t` be a tree that `verify` returns for the scenario `b`, without failed asserts, with time step `dt` and time horizon
`N * dt`. Every execution from the initial set, with urgent transitions, the last one before the horizon, and fewer phases than the maximal height, has
a path in the tree: its nodes have the modes of the phases, and their tubes contain the states of the execution at the right times.

Missing: `NodeOK` must hold for all nodes, which excludes gaps (`C55_gap_violated`), transitions with several rectangles for a step, tubes contained in
guards before all executions have entered, and transitions that the map forbids; `init_seg_length` must be 1 (see `C59_default_violated`); and states are
considered at the steps only. -/
theorem C55_covers_partial (M : Meaning S G K V D) (w : World S K V) (b : Body S G K V D) (flow : String → List V → (Nat → List K) → Prop) (dt : ℚ) (N : Nat)
    (d : String → Nat) (cfg : Engine.Cfg (Body S G K V D) (Trace K) Hits) (t : RTree (Label (Body S G K V D) (Trace K) Hits))
    (wf : Body.WF b) (hdim : ∀ a ∈ b.agents, ∀ rs, Dict.get? b.init a.1 = some rs → ∀ r ∈ rs, r.1.length = d a.1 ∧ r.2.length = d a.1)
    (hsound : SoundTubes w flow dt N d) (hseg : w.segLen = 1) (hdt : 0 < dt)
    (hround : ∀ k : Nat, w.round10 ((k : ℚ) * dt) = (k : ℚ) * dt ∧ cfg.round10 ((k : ℚ) * dt) = (k : ℚ) * dt ∧ cfg.roundN ((k : ℚ) * dt) = (k : ℚ) * dt)
    (hkind : cfg.kind = .ver) (hcfg : cfg.step = verStep w) (hhor : cfg.horizon = (N : ℚ) * dt)
    (hret : Returned cfg b [] t) (hsafe : ∀ u k, RTree.Below t u k → u.label.hits = .ok none)
    (hok : ∀ n full, Visited w cfg b n → fillTubes w n.body n.start (cfg.round10 (cfg.horizon - n.start)) n.trace = .ok full → NodeOK M w n full)
    (ex : List (Phase K V × Nat)) (hex : Execution M w b flow ex) (hstart : ∀ x, ex.head? = some x → Starts b flow x.1)
    (hheight : ∀ mh, cfg.maxHeight = some mh → ex.length < mh) (hlast : (ex.dropLast.map Prod.snd).sum < N) :
    ∃ us, PathIn t us ∧ Tracks (b.agents.map Prod.fst) dt N 0 ex us := by
  have hexp := Engine.returned_explores hret
  have hd : (cfg.parallel && decide (cfg.kind = .sim)) = false := by rw [hkind]; simp
  rw [hd] at hexp
  obtain ⟨φ, m, rest, rfl⟩ : ∃ φ m rest, ex = (φ, m) :: rest := by
    cases hex
    · exact ⟨_, _, _, rfl⟩
    · exact ⟨_, _, _, rfl⟩
  have h0 : cfg.roundN 0 = 0 := by
    have := (hround 0).2.2
    simpa using this
  have hs := hstart (φ, m) rfl
  refine tree_tracks (cfg := cfg) wf hsound hseg hdt (fun k => (hround k).1) (fun k => (hround k).2) hcfg hhor hok _ hex φ m rest rfl
    ⟨0, cfg.roundN 0, b, []⟩ 0 0 t .root ?_ hexp (fun mh hm => by have := hheight mh hm; simpa using this) (by omega) hsafe
  refine ⟨rfl, rfl, fun a ha => (hs a ha).2.1, ?_, by omega, by simp, by simp, fun a ha => (hs a ha).1, ?_, .inl rfl⟩
  · simp only; rw [h0]; simp
  · intro a ha
    obtain ⟨_, _, h3, r, h4, h5⟩ := hs a ha
    exact .inr ⟨rfl, [r], h4, fun r' hr' => hdim a ha _ h4 r' hr', h3, r, rfl, h5⟩

end

/-! ### cases -/

namespace ExecEx
open VerEx

/-- The agent `a` moves one unit per step in mode `A`; everything else stands still. -/
def speed (a : String) (m : List String) : ℚ := if a = "a" ∧ m = ["A"] then 1 else 0

/-- `m` rectangles of an agent with constant speed. -/
def drift (v : ℚ) (c : Rect.Box ℚ) (m : Nat) : Tube ℚ :=
  (List.range m).map (fun (j : Nat) => ⟨j, j + 1, (c.1.map (· + v * (j : ℚ)), c.2.map (· + v * (j : ℚ)))⟩)

def wld : World Sn ℚ String :=
  { sense := sense, bloat := fun a m c remain => drift (speed a m) c remain.num.toNat, segLen := 1, mapH := open_, unsafeContinue := false,
    round10 := id, sh := fun _ => [], rd := rd }

def flow (a : String) (m : List String) (ρ : Nat → List ℚ) : Prop := ∀ k, ρ k = (ρ 0).map (· + speed a m * (k : ℚ))

theorem soundTubes (N : Nat) : SoundTubes wld flow 1 N (fun _ => 1) := by
  have hlen : ∀ k : Nat, (((N - k : Nat) : ℚ) * 1).num.toNat = N - k := by
    intro k; rw [mul_one, Rat.num_natCast]; rfl
  refine ⟨?_, ?_, ?_, ?_⟩
  · intro a m c k _ _
    simp only [wld, drift, hlen, List.length_map, List.length_range]
  · intro a m c k j s _ _ hs
    simp only [wld, drift, hlen] at hs
    rw [List.getElem?_map] at hs
    obtain ⟨i, hi, rfl⟩ := Option.map_eq_some_iff.1 hs
    obtain ⟨hj, hij⟩ := List.getElem?_eq_some_iff.1 hi
    rw [List.getElem_range] at hij
    subst hij
    simp
  · intro a m c k h1 h2 s hs
    simp only [wld, drift] at hs
    obtain ⟨i, -, rfl⟩ := List.mem_map.1 hs
    simp [h1, h2]
  · intro a m c k j s ρ hρ hin hs
    simp only [wld, drift] at hs
    rw [List.getElem?_map] at hs
    obtain ⟨i, hi, rfl⟩ := Option.map_eq_some_iff.1 hs
    obtain ⟨hj, hij⟩ := List.getElem?_eq_some_iff.1 hi
    rw [List.getElem_range] at hij
    subst hij
    rw [hρ]
    constructor
    · dsimp only
      rw [List.forall₂_map_left_iff, List.forall₂_map_right_iff]
      exact hin.1.imp (fun a b h => by linarith)
    · dsimp only
      rw [List.forall₂_map_left_iff, List.forall₂_map_right_iff]
      exact hin.2.imp (fun a b h => by linarith)

def cfg : Engine.Cfg (Body Sn Unit ℚ String Unit) (Trace ℚ) Hits :=
  { kind := .ver, parallel := false, ahead := 1, maxHeight := some 4, horizon := 3, round10 := id, roundN := id, step := verStep wld, noHits := .ok none }

variable {A : List (Assertion Sn)} {paths : List (Path Sn Unit ℚ String Unit)} {b' : Body Sn Unit ℚ String Unit}

theorem ctl (hb : b'.agents = (body A paths).agents) {a : String} {dl : Logic Sn Unit ℚ String Unit} (h : Controlled b' a dl) :
    a = "a" ∧ dl = logic A paths := controlled (asserts := A) ⟨hb ▸ h.1, h.2⟩

theorem faithful' (hb : b'.agents = (body A paths).agents) (hp : Intervals paths) (tr : Trace ℚ) : Faithful meaning wld b' tr := by
  refine ⟨?_, ?_, ?_, fun _ _ _ _ _ _ _ _ _ _ => rfl⟩
  · intro a dl p sd0 i snap hc hm _ hprep
    obtain ⟨rfl, rfl⟩ := ctl hb hc
    obtain ⟨var, lo, hi, val, rfl⟩ := hp p hm
    cases hprep
  · rintro a p i r snap ⟨dl, sd0, sd, g, hc, hm, _, hsd, _, hr⟩ ⟨sd', hsd', hin⟩ hh
    obtain ⟨rfl, rfl⟩ := ctl hb hc
    obtain ⟨var, lo, hi, val, rfl⟩ := hp p hm
    rw [boxes_det hsd' hsd] at hin
    exact (inInterval_spec lo hi "a" snap sd hin r hr).1 hh
  · intro a dl p sd0 i sd g C snap hc hm _ _ _ hC _
    obtain ⟨rfl, rfl⟩ := ctl hb hc
    obtain ⟨var, lo, hi, val, rfl⟩ := hp p hm
    cases hC
    intro t
    rfl

theorem resettable' (hb : b'.agents = (body A paths).agents)
    (hp : ∀ p ∈ paths, (∃ lo hi, p = path "x" lo hi (.arith (.atom ['1', '0']))) ∨ ∃ lo hi v, p = path "agent_mode" lo hi (.const v))
    (tr : Trace ℚ) : Resettable wld b' tr := by
  intro a dl p sd0 i sd g C hc hm _ _ _ hC
  obtain ⟨rfl, rfl⟩ := ctl hb hc
  rcases hp p hm with ⟨lo, hi, rfl⟩ | ⟨lo, hi, v, rfl⟩
  · cases hC
    refine ⟨fun e he _ => ?_, fun h => ?_⟩
    · cases he
      refine ⟨⟨by simp, by simp, by simp, by simp⟩, trivial, fun vars hv => ⟨⟨10, ?_⟩, by simp⟩⟩
      have : vars ['1', '0'] = none := hv ['1', '0']
      simp only [value, this, Option.none_or]
      have hrd : rd ['1', '0'] = some 10 := by decide +kernel
      exact hrd
    · simp only [path, logic, List.mem_singleton] at h
      exact absurd h (by decide)
  · exact ⟨fun e he => (by cases he), fun _ => ⟨fun e he => (by cases he), fun v he => (by cases he)⟩⟩

theorem contained' (hb : b'.agents = (body A paths).agents) (hp : Intervals paths) (tr : Trace ℚ) :
    ∀ j a p, ContainedAt wld b' tr j a p → ∀ s, InTube b' tr j s → meaning.holds p a s := by
  rintro j a p ⟨r, dl, sd0, sd, g, hc, hm, _, hsd, _, hr⟩ s ⟨sd', hsd', hin⟩
  obtain ⟨rfl, rfl⟩ := ctl hb hc
  obtain ⟨var, lo, hi, val, rfl⟩ := hp p hm
  rw [boxes_det hsd' hsd] at hin
  exact (inInterval_spec lo hi "a" s sd hin _ hr).2 rfl

theorem permits' (hb : b'.agents = (body A paths).agents) {a : String} {dl : Logic Sn Unit ℚ String Unit} (h : Controlled b' a dl) (m m' : List String) :
    MapPermits wld dl m m' := by
  obtain ⟨rfl, rfl⟩ := ctl hb h
  exact ⟨m, none, m', none, .all noTrack, .none noTrack, .all noTrack, .none noTrack, .inr rfl⟩

/-- What a guard is asked: whether the rectangle of `a` meets the interval. -/
theorem asked' (hb : b'.agents = (body A paths).agents) {tr : Trace ℚ} {i : Nat} {a : String} {p : Path Sn Unit ℚ String Unit} {r : Bool × Bool}
    (h : Asked wld b' tr i a p r) : a = "a" ∧ p ∈ paths ∧ ∃ segs seg, Dict.get? tr "a" = some segs ∧ segs[i]? = some seg ∧ p.check () seg.box = .ok r := by
  obtain ⟨dl, sd0, sd, g, hc, hm, _, hsd, _, hr⟩ := h
  obtain ⟨rfl, rfl⟩ := ctl hb hc
  refine ⟨rfl, hm, ?_⟩
  unfold Boxes at hsd
  rw [hb] at hsd
  cases hsd with
  | @cons _ x _ l2 h1 h2 =>
    obtain ⟨e1, ⟨segs, e2, e3⟩, _⟩ := h1
    refine ⟨segs, x.2.1, e2, e3, ?_⟩
    have : wld.sense "a" (x :: l2) = x.2.1.box := by
      show sense "a" (x :: l2) = _
      unfold sense
      rw [List.find?_cons_of_pos (by simp only [decide_eq_true_eq]; exact e1)]
      rfl
    rw [this] at hr
    exact hr

/-- All guards are the same interval. -/
theorem alone' (hb : b'.agents = (body A paths).agents) (lo hi : ℚ) (hp : ∀ p ∈ paths, ∃ var val, p = path var lo hi val) (tr : Trace ℚ) :
    ∀ i snap a dl dest post, InTube b' tr i snap → CanSwitch meaning wld b' snap a dl dest post → NoExtraHit meaning wld b' tr i a dl snap := by
  rintro i snap a dl dest post _ ⟨state, mode, static, hc, _, _, _, ⟨choice, c1, c2, ⟨v, c3⟩, _⟩, _⟩ p hpm _
  obtain ⟨rfl, rfl⟩ := ctl hb hc
  obtain ⟨q, hq⟩ := Option.isSome_iff_exists.1 c3
  obtain ⟨q1, _, q2⟩ := c1 v q hq
  obtain ⟨var, val, rfl⟩ := hp q q1
  obtain ⟨var', val', rfl⟩ := hp p hpm
  exact ⟨_, hpm, rfl, q2⟩

/-- Children have the agents of the node. -/
theorem next_agents {S G K V D : Type} [Field K] [LinearOrder K] [DecidableEq V] {w : World S K V} {n : Engine.Work (Body S G K V D) (Trace K)} {remain : ℚ}
    {res : Engine.Result (Body S G K V D) (Trace K) (Option (Dict String (List String)))} (h : verifyOne w n remain = .ok res) :
    ∀ c ∈ res.next, c.body.agents = n.body.agents ∧ c.body.static = n.body.static := by
  obtain ⟨full, _, h⟩ := (bind_ok_iff _ _ _).1 h
  obtain ⟨g, _, h⟩ := (bind_ok_iff _ _ _).1 h
  match g, h with
  | .asserts a idx, h =>
    dsimp only at h
    split at h
    · cases h
    · obtain ⟨cut, _, rfl⟩ := (map_ok_iff _ _ _).1 h
      simp
  | .trans [], h =>
    injection h with h; subst h; simp
  | .trans (t :: ts), h =>
    obtain ⟨cs, hcs, h⟩ := (bind_ok_iff _ _ _).1 h
    obtain ⟨cut, _, rfl⟩ := (map_ok_iff _ _ _).1 h
    intro c hc
    obtain ⟨l, hl, hcl⟩ := List.mem_flatten.1 hc
    obtain ⟨x, hx, rfl⟩ := List.mem_map.1 hl
    obtain ⟨tr, -, htr⟩ := forall₂_mem_right ((mapM_ok_iff _ _ _).1 hcs) hx
    unfold childOf at htr
    split at htr
    · split at htr
      · injection htr with htr; subst htr; simp at hcl
      · obtain ⟨c', hc', rfl⟩ := (map_ok_iff _ _ _).1 htr
        rw [List.mem_singleton.1 hcl]
        obtain ⟨trunc, h1, h⟩ := (bind_ok_iff _ _ _).1 hc'
        obtain ⟨t0, h2, h⟩ := (bind_ok_iff _ _ _).1 h
        obtain ⟨it, h3, rfl⟩ := (map_ok_iff _ _ _).1 h
        exact ⟨rfl, rfl⟩
    · cases htr

/-! #### a case that meets the hypotheses -/

/-- From 3/2 on, the mode becomes `B` and `x` becomes 10. -/
def okP : List (Path Sn Unit ℚ String Unit) := [path "agent_mode" (3/2) 5 (.const "B"), path "x" (3/2) 5 (.arith (.atom ['1', '0']))]

/-- `assert -1 <= ego.x <= 11` -/
def okA : List (Assertion Sn) := [plain (-1) 11]

def root : Engine.Work (Body Sn Unit ℚ String Unit) (Trace ℚ) := ⟨0, 0, body okA okP, []⟩

def child : Engine.Work (Body Sn Unit ℚ String Unit) (Trace ℚ) :=
  ⟨1, 1, { body okA okP with mode := [("a", ["B"]), ("b", ["A"])], init := [("a", [([10], [10]), ([10], [10])]), ("b", [([5], [6])])] },
    [("b", [seg 1 5 6, seg 2 5 6])]⟩

def rootFull : Trace ℚ := [("a", [seg 0 0 1, seg 1 1 2, seg 2 2 3]), ("b", [seg 0 5 6, seg 1 5 6, seg 2 5 6])]
def childFull : Trace ℚ := [("b", [seg 1 5 6, seg 2 5 6]), ("a", [seg 1 10 10, seg 2 10 10])]

theorem root_run : (verifyOne wld root 3).map view = .ok ⟨none, [⟨1, child.body.mode, child.body.init, child.trace⟩], rootFull⟩ := by
  decide +kernel

theorem child_run : (verifyOne wld child 2).map view = .ok ⟨none, [], childFull⟩ := by
  decide +kernel

theorem root_fill : fillTubes wld root.body 0 3 [] = .ok rootFull := by decide +kernel
theorem child_fill : fillTubes wld child.body 1 2 child.trace = .ok childFull := by decide +kernel

/-- The nodes of this scenario. -/
theorem visited {n : Engine.Work (Body Sn Unit ℚ String Unit) (Trace ℚ)} (h : Visited wld cfg (body okA okP) n) : n = root ∨ n = child := by
  induction h with
  | root => exact .inl rfl
  | @child n c _ hc ih =>
    right
    rcases ih with rfl | rfl
    · have e : cfg.round10 (cfg.horizon - root.start) = 3 := by decide +kernel
      rw [e] at hc
      obtain ⟨res, h1, _, _, h4⟩ := of_view root_run
      simp only [verStep, h1] at hc
      have h5 := h4 c hc
      obtain ⟨h6, h7⟩ := next_agents h1 c hc
      simp only [List.mem_singleton, ChildView.mk.injEq] at h5
      obtain ⟨e1, e2, e3, e4⟩ := h5
      obtain ⟨start, bd, tr⟩ := c
      obtain ⟨ags, md, ini, st⟩ := bd
      simp only at e1 e2 e3 e4 h6 h7
      subst e1 e2 e3 e4 h6 h7
      rfl
    · have e : cfg.round10 (cfg.horizon - child.start) = 2 := by decide +kernel
      rw [e] at hc
      obtain ⟨res, h1, _, _, h4⟩ := of_view child_run
      simp only [verStep, h1] at hc
      exact absurd (h4 c hc) (by simp)

theorem okP_intervals : Intervals okP := by
  intro p hp
  simp only [okP, List.mem_cons, List.not_mem_nil, or_false] at hp
  rcases hp with rfl | rfl
  · exact ⟨_, _, _, _, rfl⟩
  · exact ⟨_, _, _, _, rfl⟩

theorem okP_check {p : Path Sn Unit ℚ String Unit} (hp : p ∈ okP) : p.check () = inInterval (3/2) 5 := by
  simp only [okP, List.mem_cons, List.not_mem_nil, or_false] at hp
  rcases hp with rfl | rfl <;> rfl

theorem modes1 {b' : Body Sn Unit ℚ String Unit} (hb : b'.agents = (body okA okP).agents) (v : String) (hm : b'.mode = [("a", [v]), ("b", ["A"])]) :
    ∀ a dl src, Controlled b' a dl → Dict.get? b'.mode a = some src → src.length = dl.disc.length := by
  intro a dl src hc hs
  obtain ⟨rfl, rfl⟩ := ctl hb hc
  rw [hm] at hs
  simp only [Dict.get?_cons, if_true, Option.some.injEq] at hs
  subst hs
  rfl

/-- The steps of the transitions that are found. -/
def idxs (f : Found Sn Unit ℚ String Unit) : List (List Nat) :=
  match f with
  | .asserts _ _ => []
  | .trans ts => ts.map (fun t => t.idxs)

theorem root_ok : NodeOK meaning wld root rootFull := by
  have hrs : ∀ p ∈ okP, (∃ lo hi, p = path "x" lo hi (.arith (.atom ['1', '0']))) ∨ ∃ lo hi v, p = path "agent_mode" lo hi (.const v) := by
    intro p hp
    simp only [okP, List.mem_cons, List.not_mem_nil, or_false] at hp
    rcases hp with rfl | rfl
    · exact .inr ⟨_, _, _, rfl⟩
    · exact .inl ⟨_, _, rfl⟩
  refine ⟨⟨resettable' rfl hrs _, ?_, ?_, ?_, ?_, alone' rfl (3/2) 5 (fun p hp => ?_) _⟩, modes1 rfl "A" rfl,
    faithful' rfl okP_intervals _, contained' rfl okP_intervals _⟩
  · intro j k a p hjk _ _ hk
    have hk3 : k < 3 := hk ("a", [seg 0 0 1, seg 1 1 2, seg 2 2 3]) (by simp [rootFull])
    refine ⟨"a", path "agent_mode" (3/2) 5 (.const "B"), ?_⟩
    have hb0 := boxes okA okP [seg 0 0 1, seg 1 1 2, seg 2 2 3] [seg 0 5 6, seg 1 5 6, seg 2 5 6] 0 (seg 0 0 1) (seg 0 5 6) rfl rfl
    rcases (by omega : k = 1 ∨ k = 2) with rfl | rfl
    · exact ⟨false, logic okA okP, _, _, (), controlled_a _ _, by simp [logic, okP], hb0,
        boxes okA okP _ _ 1 (seg 1 1 2) (seg 1 5 6) rfl rfl, rfl, by decide +kernel⟩
    · exact ⟨true, logic okA okP, _, _, (), controlled_a _ _, by simp [logic, okP], hb0,
        boxes okA okP _ _ 2 (seg 2 2 3) (seg 2 5 6) rfl rfl, rfl, by decide +kernel⟩
  · intro j a p _ o ho _ rs hrs
    have : rs.length = 1 := by
      simp only [root, body, List.mem_cons, List.not_mem_nil, or_false] at ho hrs
      rcases ho with rfl | rfl
      · cases hrs; rfl
      · cases hrs; rfl
    omega
  · intro ts hts t ht k i hi
    have h1 : (getTransitions wld root.body rootFull).map idxs = .ok [[1, 2]] := by decide +kernel
    rw [hts] at h1
    have h2 : ts.map (fun t => t.idxs) = [[1, 2]] := by
      simpa only [Except.map, Except.ok.injEq, idxs] using h1
    have h3 : t.idxs ∈ ts.map (fun t => t.idxs) := List.mem_map_of_mem (f := fun (t : Trans Sn Unit ℚ String Unit) => t.idxs) ht
    rw [h2, List.mem_singleton] at h3
    rw [h3] at hi ⊢
    match k with
    | 0 => cases hi; exact ⟨1, rfl, rfl⟩
    | 1 => cases hi; exact ⟨1, rfl, rfl⟩
    | k + 2 => simp at hi
  · intro i a dl sel src dest hc _ _ _
    exact permits' (A := okA) (paths := okP) rfl hc _ _
  · simp only [okP, List.mem_cons, List.not_mem_nil, or_false] at hp
    rcases hp with rfl | rfl
    · exact ⟨_, _, rfl⟩
    · exact ⟨_, _, rfl⟩

theorem child_ok : NodeOK meaning wld child childFull := by
  have hrs : ∀ p ∈ okP, (∃ lo hi, p = path "x" lo hi (.arith (.atom ['1', '0']))) ∨ ∃ lo hi v, p = path "agent_mode" lo hi (.const v) := by
    intro p hp
    simp only [okP, List.mem_cons, List.not_mem_nil, or_false] at hp
    rcases hp with rfl | rfl
    · exact .inr ⟨_, _, _, rfl⟩
    · exact .inl ⟨_, _, rfl⟩
  have hb : child.body.agents = (body okA okP).agents := rfl
  have hno : ∀ i a p r, Asked wld child.body childFull i a p r → r = (false, false) := by
    intro i a p r h
    obtain ⟨rfl, hp, segs, sg, h1, h2, h3⟩ := asked' (A := okA) (paths := okP) hb h
    rw [okP_check hp] at h3
    have : Dict.get? childFull "a" = some [seg 1 10 10, seg 2 10 10] := by decide +kernel
    rw [this] at h1
    cases h1
    have hs : sg.box = ([10], [10]) := by
      match i with
      | 0 => cases h2; rfl
      | 1 => cases h2; rfl
      | i + 2 => simp at h2
    rw [hs] at h3
    have : inInterval (3/2) 5 ([10], [10]) = .ok (false, false) := by decide +kernel
    rw [this] at h3
    cases h3
    rfl
  refine ⟨⟨resettable' hb hrs _, ?_, ?_, ?_, ?_, alone' hb (3/2) 5 (fun p hp => ?_) _⟩, modes1 hb "B" rfl,
    faithful' hb okP_intervals _, contained' hb okP_intervals _⟩
  · rintro j k a p _ ⟨c, h⟩
    cases hno _ _ _ _ h
  · rintro j a p ⟨c, h⟩
    cases hno _ _ _ _ h
  · intro ts hts t ht
    have h1 : (getTransitions wld child.body childFull).map idxs = .ok [] := by decide +kernel
    rw [hts] at h1
    have h2 : ts.map (fun t => t.idxs) = [] := by
      simpa only [Except.map, Except.ok.injEq, idxs] using h1
    have h3 : t.idxs ∈ ts.map (fun t => t.idxs) := List.mem_map_of_mem (f := fun (t : Trans Sn Unit ℚ String Unit) => t.idxs) ht
    rw [h2] at h3
    simp at h3
  · intro i a dl sel src dest hc _ _ _
    exact permits' (A := okA) (paths := okP) hb hc _ _
  · simp only [okP, List.mem_cons, List.not_mem_nil, or_false] at hp
    rcases hp with rfl | rfl
    · exact ⟨_, _, rfl⟩
    · exact ⟨_, _, rfl⟩

/-- `verify` returns a tree. -/
theorem returned (b : Body Sn Unit ℚ String Unit) : ∃ t, Returned cfg b [] t := by
  obtain ⟨N, hN⟩ := C08_terminates cfg (by decide) 4 rfl b []
  obtain ⟨s, hs⟩ := hN (List.replicate N 0) (by simp)
  obtain ⟨g, hg, _⟩ := C07_loop_computes_exploration cfg (by decide) b [] _ s hs
  exact ⟨g.map Label.ofRec, by decide, _, s, g, hs, hg, rfl⟩

/-- `x` is 1/4, 5/4, 9/4; then the agent switches, and `x` is 10. -/
def ex1 : Phase ℚ String := ⟨fun _ => ["A"], fun a k => if a = "a" then [1/4 + (k : ℚ)] else [11/2]⟩
def ex2 : Phase ℚ String := ⟨fun a => if a = "a" then ["B"] else ["A"], fun a _ => if a = "a" then [10] else [11/2]⟩

theorem flow1 (x : ℚ) (a : String) : flow a ["A"] (fun k => if a = "a" then [x + (k : ℚ)] else [11/2]) := by
  intro k
  by_cases e : a = "a"
  · simp [e, speed]
  · simp [e, speed]

/-- The hypotheses of `C55_covers_partial` are met by an execution that switches. -/
theorem ok_case : ∃ t, Returned cfg (body okA okP) [] t ∧ (∀ u k, RTree.Below t u k → u.label.hits = .ok none) ∧
    Body.WF (body okA okP) ∧ SoundTubes wld flow 1 3 (fun _ => 1) ∧ wld.segLen = 1 ∧ cfg.step = verStep wld ∧ cfg.horizon = ((3 : Nat) : ℚ) * 1 ∧
    (∀ n full, Visited wld cfg (body okA okP) n → fillTubes wld n.body n.start (cfg.round10 (cfg.horizon - n.start)) n.trace = .ok full →
      NodeOK meaning wld n full) ∧
    Execution meaning wld (body okA okP) flow [(ex1, 2), (ex2, 1)] ∧ Starts (body okA okP) flow ex1 := by
  obtain ⟨t, ht⟩ := returned (body okA okP)
  refine ⟨t, ht, ?_, wf _ _, soundTubes 3, rfl, rfl, by decide +kernel, ?_, ?_, ?_⟩
  · intro u k hu
    have hx := Engine.returned_explores ht
    obtain ⟨st', b', tr', h1, h2⟩ := Engine.explores_below_inv (I := fun n => Visited wld cfg (body okA okP) n)
      (fun n _ hn c hc => .child hn hc) hu hx .root
    obtain ⟨-, -, -, h3 | ⟨-, -, h3, -⟩⟩ := Engine.explores_node h1
    · exact h3.2.2.2
    · rw [h3]
      rcases visited h2 with e | e
      · rw [e]
        obtain ⟨res, r1, r2, -⟩ := of_view root_run
        have e3 : cfg.round10 (cfg.horizon - root.start) = 3 := by decide +kernel
        show (verStep wld root (cfg.round10 (cfg.horizon - root.start))).hits = _
        rw [e3, verStep, r1]
        show Except.ok res.hits = _
        rw [r2]
      · rw [e]
        obtain ⟨res, r1, r2, -⟩ := of_view child_run
        have e3 : cfg.round10 (cfg.horizon - child.start) = 2 := by decide +kernel
        show (verStep wld child (cfg.round10 (cfg.horizon - child.start))).hits = _
        rw [e3, verStep, r1]
        show Except.ok res.hits = _
        rw [r2]
  · intro n full hn hf
    rcases visited hn with rfl | rfl
    · have e3 : cfg.round10 (cfg.horizon - root.start) = 3 := by decide +kernel
      rw [e3] at hf
      have := root_fill.symm.trans hf
      cases this
      exact root_ok
    · have e3 : cfg.round10 (cfg.horizon - child.start) = 2 := by decide +kernel
      rw [e3] at hf
      have := child_fill.symm.trans hf
      cases this
      exact child_ok
  · have hq1 : Quiet meaning (body okA okP) ex1 2 := by
      intro k a dl p hk hc hp hh
      obtain ⟨rfl, rfl⟩ := controlled hc
      have : p.check () = inInterval (3/2) 5 := okP_check hp
      simp only [meaning, this] at hh
      rcases (by omega : k = 0 ∨ k = 1) with rfl | rfl
      · exact absurd hh (by decide +kernel)
      · exact absurd hh (by decide +kernel)
    have hq2 : Quiet meaning (body okA okP) ex2 1 := by
      intro k a dl p hk hc hp hh
      obtain ⟨rfl, rfl⟩ := controlled hc
      have : p.check () = inInterval (3/2) 5 := okP_check hp
      simp only [meaning, this] at hh
      obtain rfl : k = 0 := by omega
      exact absurd hh (by decide +kernel)
    refine .switch hq1 ⟨"a", logic okA okP, ?_, ?_, ?_⟩ (.last hq2)
    · refine ⟨[9/4], ["A"], [], controlled_a _ _, ?_, rfl, rfl, ⟨fun v => if v = "agent_mode" then some (path "agent_mode" (3/2) 5 (.const "B"))
        else if v = "x" then some (path "x" (3/2) 5 (.arith (.atom ['1', '0']))) else none, ?_, ?_, ⟨"x", by decide⟩, rfl, rfl, ?_, ?_⟩,
        permits' (A := okA) (paths := okP) rfl (controlled_a _ _) _ _⟩
      · have : (1/4 + ((2 : Nat) : ℚ)) = 9/4 := by norm_num
        refine List.mem_map.2 ⟨("a", logic okA okP), by simp [body], ?_⟩
        refine Prod.ext rfl (Prod.ext ?_ (Prod.ext rfl rfl))
        show (if "a" = "a" then [1/4 + ((2 : Nat) : ℚ)] else [11/2]) = [9/4]
        rw [if_pos rfl, this]
      · have hh : ∀ p ∈ okP, meaning.holds p "a" (ex1.snap (body okA okP) 2) := by
          intro p hp
          simp only [meaning, okP_check hp]
          decide +kernel
        intro v p hv
        dsimp only at hv
        by_cases e : v = "agent_mode"
        · rw [if_pos e] at hv
          cases hv
          exact ⟨by simp [logic, okP], e.symm, hh _ (by simp [okP])⟩
        · rw [if_neg e] at hv
          by_cases e' : v = "x"
          · rw [if_pos e'] at hv
            cases hv
            exact ⟨by simp [logic, okP], e'.symm, hh _ (by simp [okP])⟩
          · rw [if_neg e'] at hv; cases hv
      · intro p hp _
        simp only [logic, okP, List.mem_cons, List.not_mem_nil, or_false] at hp
        rcases hp with rfl | rfl <;> decide
      · intro i v z hv hz
        match i with
        | 0 =>
          simp only [logic, List.getElem?_cons_zero, Option.some.injEq] at hv
          subst hv
          have : z = "B" := by simpa [ex2] using hz.symm
          subst this
          exact .const _
        | i + 1 => simp [logic] at hv
      · intro i v hv
        match i with
        | 0 =>
          simp only [logic, List.getElem?_cons_zero, Option.some.injEq] at hv
          subst hv
          refine ⟨_, rfl, 10, rfl, ?_⟩
          have hrd : rd ['1', '0'] = some 10 := by decide +kernel
          exact hrd
        | i + 1 => simp [logic] at hv
    · intro k
      have : speed "a" ["B"] = 0 := by decide +kernel
      simp [this, ex2]
    · intro o ho
      exact ⟨by simp [ex2, ex1, ho], fun k => by simp [ex2, ex1, ho]⟩
  · intro a ha
    simp only [body, List.mem_cons, List.not_mem_nil, or_false] at ha
    rcases ha with rfl | rfl
    · exact ⟨rfl, rfl, flow1 (1/4) "a", ([0], [1]), rfl, inside1 _ _ _ (by norm_num) (by norm_num)⟩
    · exact ⟨rfl, rfl, flow1 (1/4) "b", ([5], [6]), rfl, inside1 _ _ _ (by norm_num) (by norm_num)⟩

/-- So this execution has a path in the tree. -/
example : ∃ t, Returned cfg (body okA okP) [] t ∧ ∃ us, PathIn t us ∧ Tracks ["a", "b"] 1 3 0 [(ex1, 2), (ex2, 1)] us := by
  obtain ⟨t, h1, h2, h3, h4, h5, h6, h7, h8, h9, h10⟩ := ok_case
  refine ⟨t, h1, C55_covers_partial meaning wld (body okA okP) flow 1 3 (fun _ => 1) cfg t h3 ?_ h4 h5 (by norm_num) ?_ rfl h6 h7 h1 h2 h8 _ h9 ?_ ?_ ?_⟩
  · intro a ha rs hrs r hr
    simp only [body, List.mem_cons, List.not_mem_nil, or_false] at ha hrs
    rcases ha with rfl | rfl
    · cases hrs; rw [List.mem_singleton] at hr; subst hr; exact ⟨rfl, rfl⟩
    · cases hrs; rw [List.mem_singleton] at hr; subst hr; exact ⟨rfl, rfl⟩
  · intro k
    exact ⟨rfl, rfl, rfl⟩
  · intro x hx
    simp only [List.head?_cons, Option.some.injEq] at hx
    subst hx
    exact h10
  · intro mh hm
    cases hm
    decide
  · decide

/-! #### a violation -/

/-- Between 1/4 and 1/2, the mode becomes `B`. -/
def gapP : List (Path Sn Unit ℚ String Unit) := [path "agent_mode" (1/4) (1/2) (.const "B")]

theorem gap_run : (verifyOne wld ⟨0, 0, body [] gapP, []⟩ 3).map (fun r => (r.hits, r.trace)) =
    .ok (none, [("a", [seg 0 0 1]), ("b", [seg 0 5 6])]) := by
  decide +kernel

/-- `x` is 3/4, 7/4, …: the guard is never true. -/
def passing : Phase ℚ String := ⟨fun _ => ["A"], fun a k => if a = "a" then [3/4 + (k : ℚ)] else [11/2]⟩

end ExecEx

open VerEx ExecEx in
/-- **Violation of C55.** The guard may be satisfied at the first step, for some states of the initial set, and no later. Then the tube is cut after
the first step, and nothing in the tree contains the execution of `x = 3/4`, which does not satisfy the guard, after one step. -/
theorem C55_gap_violated : ∃ (b : Body Sn Unit ℚ String Unit) (ex : List (Phase ℚ String × Nat)) (t : RTree (Label (Body Sn Unit ℚ String Unit) (Trace ℚ) Hits)),
    Returned ExecEx.cfg b [] t ∧ t.label.hits = .ok none ∧ Body.WF b ∧ SoundTubes wld ExecEx.flow 1 3 (fun _ => 1) ∧ ExecEx.cfg.step = verStep wld ∧
    ExecEx.cfg.horizon = ((3 : Nat) : ℚ) * 1 ∧ Execution meaning wld b ExecEx.flow ex ∧ (∀ x, ex.head? = some x → Starts b ExecEx.flow x.1) ∧
    (∀ tr, Faithful meaning wld b tr) ∧
    ¬ ∃ us, PathIn t us ∧ Tracks (b.agents.map Prod.fst) 1 3 0 ex us := by
  obtain ⟨t, ht⟩ := ExecEx.returned (body [] gapP)
  have hx := Engine.returned_explores ht
  obtain ⟨-, -, -, h3 | ⟨-, h4, h3, -⟩⟩ := Engine.explores_node hx
  · refine absurd ⟨?_, ?_⟩ h3.1
    · intro m hm; cases hm; omega
    · show 0 < ExecEx.cfg.round10 (ExecEx.cfg.horizon - 0)
      decide +kernel
  have e3 : ExecEx.cfg.round10 (ExecEx.cfg.horizon - 0) = 3 := by decide +kernel
  obtain ⟨res, r1, r2⟩ := (map_ok_iff _ _ _).1 ExecEx.gap_run
  have h3' : t.label.hits = (verStep wld ⟨0, 0, body [] gapP, []⟩ (ExecEx.cfg.round10 (ExecEx.cfg.horizon - 0))).hits := h3
  have h4' : t.label.trace = (verStep wld ⟨0, 0, body [] gapP, []⟩ (ExecEx.cfg.round10 (ExecEx.cfg.horizon - 0))).trace := h4
  rw [e3, verStep, r1] at h3' h4'
  dsimp only at h3' h4'
  have ra := congrArg Prod.fst r2
  have rb := congrArg Prod.snd r2
  dsimp only at ra rb
  rw [ra] at h3'
  rw [rb] at h4'
  have hint : Intervals gapP := by
    intro p hp
    simp only [gapP, List.mem_singleton] at hp
    exact ⟨_, _, _, _, hp⟩
  refine ⟨body [] gapP, [(passing, 1)], t, ht, h3', wf _ _, soundTubes 3, rfl, by decide +kernel, .last ?_, ?_, fun tr => faithful' rfl hint tr, ?_⟩
  · intro k a dl p hk hc hp hh
    obtain ⟨rfl, rfl⟩ := controlled hc
    simp only [logic, gapP, List.mem_singleton] at hp
    subst hp
    obtain rfl : k = 0 := by omega
    exact absurd (show inInterval (1/4) (1/2) (point "a" (passing.snap (body [] gapP) 0)) = .ok (true, true) from hh) (by decide +kernel)
  · rintro x hx
    simp only [List.head?_cons, Option.some.injEq] at hx
    subst hx
    intro a ha
    simp only [body, List.mem_cons, List.not_mem_nil, or_false] at ha
    rcases ha with rfl | rfl
    · exact ⟨rfl, rfl, flow1 (3/4) "a", ([0], [1]), rfl, inside1 _ _ _ (by norm_num) (by norm_num)⟩
    · exact ⟨rfl, rfl, flow1 (3/4) "b", ([5], [6]), rfl, inside1 _ _ _ (by norm_num) (by norm_num)⟩
  · rintro ⟨us, hp, htr⟩
    cases htr with
    | @cons _ _ _ _ us' u hm hk hr =>
      cases hr
      cases hp with
      | down _ hp' => cases hp'
      | root =>
        obtain ⟨segs, hs, s, hs', ht0, _⟩ := hk 1 (by omega) (by omega) "a" (by simp [body])
        rw [h4'] at hs
        simp only [Dict.get?_cons, if_true, Option.some.injEq] at hs
        subst hs
        rw [List.mem_singleton] at hs'
        subst hs'
        exact absurd ht0 (by decide +kernel)

end Verif.Props
