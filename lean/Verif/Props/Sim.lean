import Verif.Proofs.Sim3

/-!
# C01–C05, C51: one node and its children in the tree returned by `Scenario.simulate`

Specification vocabulary: `Spec/Sim.lean` (`Sees`, `Enabled`, `failing`, `Fires`, `CanSwitch`, `FullTraces`, `CutTraces`) and
`Spec/Tree.lean` (`Returned`, `Below`).
-/

set_option autoImplicit false

namespace Verif.Props
open Verif.Engine Verif.Spec Verif.Sim

variable {Env V : Type} [DecidableEq V]

/-- A labelled tree as `simulate` returns it. -/
abbrev SimTree (Env V : Type) := RTree (Label (Body Env V) (Trace V) Hits)

/-- `t` is returned by `Scenario.simulate` for the scenario with initial node contents `body`. -/
structure Simulated (w : World Env V) (cfg : Cfg (Body Env V) (Trace V) Hits) (body : Body Env V) (t : SimTree Env V) :
    Prop where
  step : cfg.step = simStep w
  returned : Returned cfg body [] t
  wf : Body.WF body

/-- Node `u`, at depth `k`, was expanded: it is above the height limit and time remains. -/
def Expanded (cfg : Cfg (Body Env V) (Trace V) Hits) (k : Nat) (u : SimTree Env V) : Prop :=
  (∀ m, cfg.maxHeight = some m → k + 1 < m) ∧ 0 < cfg.round10 (cfg.horizon - u.label.start)

/-! ### facts about expanded nodes shared by the theorems below -/

theorem edge_info {w : World Env V} {cfg : Cfg (Body Env V) (Trace V) Hits} {body : Body Env V} {t u : SimTree Env V}
    (hS : Simulated w cfg body t) {k : Nat} (hb : RTree.Below t u k) {c : SimTree Env V} (hc : c ∈ u.kids) :
    ∃ (given full : Trace V) (f : Found Env V) (r : _) (combo : List (Trans Env V)) (ch : Child (Body Env V) (Trace V)),
      OneSpec w ⟨k, u.label.start, u.label.body, given⟩ (cfg.round10 (cfg.horizon - u.label.start)) full f r ∧
      u.label.trace = r.trace ∧ f.asserts = none ∧ CutTraces u.label.body (List.take (f.idx + 1)) full u.label.trace ∧
      combo ∈ product (f.trans.map Prod.snd) ∧ ChildSpec u.label.body full f.idx combo ch ∧
      c.label.start = cfg.roundN ch.start ∧ c.label.body = ch.body ∧
      (c.label.trace = ch.trace ∨ c.label.trace = (simStep w ⟨k + 1, c.label.start, c.label.body, ch.trace⟩
              (cfg.round10 (cfg.horizon - c.label.start))).trace) := by
  obtain ⟨_, _, wf', given, _, h⟩ := returned_node hS.step hS.wf hS.returned hb
  rcases h with ⟨_, h, _⟩ | ⟨_, res, hres, h1, _, h2⟩
  · rw [h] at hc; simp at hc
  · obtain ⟨ch, hch, e1, e2, e3⟩ := forall₂_mem_right h2 hc
    unfold simStep at hres
    cases ho : simulateOne w ⟨k, u.label.start, u.label.body, given⟩ (cfg.round10 (cfg.horizon - u.label.start)) with
    | error e => rw [ho] at hres; rw [hres] at hch; simp at hch
    | ok r =>
      rw [ho] at hres
      obtain ⟨full, f, sp⟩ := simulateOne_spec wf' ho
      rw [hres] at hch h1
      have : f.asserts = none ∧ CutTraces u.label.body (List.take (f.idx + 1)) full r.trace ∧
          List.Forall₂ (ChildSpec u.label.body full f.idx) (product (f.trans.map Prod.snd)) r.next := by
        rcases sp.cases with ⟨_, g, _⟩ | ⟨_, _, g, _⟩ | ⟨g1, _, g2, g3⟩
        · dsimp only at hch; rw [g] at hch; simp at hch
        · dsimp only at hch; rw [g] at hch; simp at hch
        · exact ⟨g1, g2, g3⟩
      obtain ⟨g1, g2, g3⟩ := this
      obtain ⟨combo, hcm, cs⟩ := forall₂_mem_right g3 hch
      refine ⟨given, full, f, r, combo, ch, sp, h1, g1, by rw [h1]; exact g2, hcm, cs, e1, e2, ?_⟩
      rcases e3 with ⟨_, e3⟩ | e3
      · exact Or.inl e3
      · exact Or.inr e3

/-- A transition chosen for a child is one the specification allows, at the last sample of the node's trace. -/
theorem combo_canSwitch {w : World Env V} {n : Work (Body Env V) (Trace V)} (wf : Body.WF n.body) {remain : ℚ}
    {full : Trace V} {f : Found Env V} {r : _} (sp : OneSpec w n remain full f r) (ha : f.asserts = none)
    {cut : Trace V} (hcut : CutTraces n.body (List.take (f.idx + 1)) full cut)
    {combo : List (Trans Env V)} (hc : combo ∈ product (f.trans.map Prod.snd)) :
    combo.map Trans.agent = f.trans.map Prod.fst ∧
    ∀ t ∈ combo, CanSwitch w n.body cut f.idx t.agent t.dest t.init ∧
      ∃ rows, Dict.get? full t.agent = some rows ∧ f.idx < rows.length := by
  obtain ⟨_, _, _, _, fs⟩ := sp.found
  rcases fs.cases with ⟨_, g, _⟩ | ⟨s, _, _, g, _⟩ | ⟨s, ss, _, _, _, hcol⟩
  · rw [g] at hc
    simp only [List.map_nil, product, List.mem_singleton] at hc
    subst hc; simp [g]
  · rw [g] at ha; cases ha
  · obtain ⟨k1, k2, _⟩ := collect_spec hcol
    have hag : ∀ a ts, (a, ts) ∈ f.trans → ∀ t ∈ ts, t.agent = a := fun a ts hm t hts => ((k2 a ts hm).2.2 t hts).2.1
    refine ⟨combo_agents hag hc, ?_⟩
    intro t ht
    rw [mem_product] at hc
    obtain ⟨ts, hts, htm⟩ := forall₂_mem_left hc ht
    obtain ⟨⟨a, ts'⟩, hm, rfl⟩ := List.mem_map.1 hts
    obtain ⟨q1, q2, dl', src, q3, q4, q5⟩ := (k2 a ts' hm).2.2 t htm
    subst q2
    obtain ⟨dl, env, rows, row, mode, p1, p2, p3, p4, p5, p6, p7⟩ := ss.sound t q1
    have hcont := (mem_guardAgents.1 p1).1
    have hdl : dl = dl' := by
      have := Dict.get?_of_mem wf.names hcont.1
      rw [this] at q3; injection q3
    subst hdl
    rw [p5] at q4; cases q4
    have hlt : f.idx < rows.length := by
      by_contra hge
      rw [List.getElem?_eq_none (by omega)] at p4; cases p4
    obtain ⟨rows', c1, c2⟩ := hcut (t.agent, dl) hcont.1
    rw [p3] at c1; cases c1
    refine ⟨⟨dl, env, _, row, src, hcont, (sees_cut (by omega) hcut _ _).2 p2, c2, ?_, p5, p7, q5⟩, rows, p3, hlt⟩
    rw [List.getElem?_take, if_pos (by omega)]; exact p4

theorem simStep_trace_prefix {w : World Env V} {n : Work (Body Env V) (Trace V)} (wf : Body.WF n.body) (remain : ℚ)
    {a : String × Logic Env V} (ha : a ∈ n.body.agents) {rows : List (Row V)} (hg : Dict.get? n.trace a.1 = some rows) :
    ∃ crows, Dict.get? (simStep w n remain).trace a.1 = some crows ∧ crows <+: rows := by
  unfold simStep
  cases ho : simulateOne w n remain with
  | error e => exact ⟨rows, hg, List.prefix_refl _⟩
  | ok r =>
    obtain ⟨full, f, sp⟩ := simulateOne_spec wf ho
    have hf := sp.traces a ha
    rw [hg] at hf
    dsimp only at hf ⊢
    have cut : ∀ m, CutTraces n.body (List.take m) full r.trace → ∃ crows, Dict.get? r.trace a.1 = some crows ∧ crows <+: rows := by
      intro m hc
      obtain ⟨rows', g1, g2⟩ := hc a ha
      rw [hf] at g1; cases g1
      exact ⟨_, g2, List.take_prefix _ _⟩
    rcases sp.cases with ⟨_, _, g⟩ | ⟨_, _, _, g⟩ | ⟨_, _, g, _⟩
    · split at g
      · rw [g]; exact ⟨rows, hf, List.prefix_refl _⟩
      · exact cut _ g
    · rw [g]; exact ⟨rows, hf, List.prefix_refl _⟩
    · exact cut _ g

/-! ## C01 -/

/-- Across every edge: all agents' traces in the parent have the same number `idx + 1` of rows; the child starts (up to the
rounding of start times) at the time stamp of the last row of the first agent; every agent either keeps its mode and starts
the child at exactly the state in its last row – and its trace in the child begins with that very row – or makes a
transition allowed at that last sample and starts the child in the destination mode at the reset state. -/
theorem C01_switch_continuous {w : World Env V} {cfg : Cfg (Body Env V) (Trace V) Hits} {body : Body Env V}
    {t u c : SimTree Env V} (hS : Simulated w cfg body t) {k : Nat} (hb : RTree.Below t u k) (hc : c ∈ u.kids) :
    ∃ idx, (∃ a rest rows row, u.label.body.agents = a :: rest ∧ Dict.get? u.label.trace a.1 = some rows ∧
        rows.getLast? = some row ∧ c.label.start = cfg.roundN row.time) ∧
      ∀ a ∈ u.label.body.agents, ∃ rows row, Dict.get? u.label.trace a.1 = some rows ∧ rows.length = idx + 1 ∧
        rows.getLast? = some row ∧
        ((Dict.get? c.label.body.mode a.1 = Dict.get? u.label.body.mode a.1 ∧
          Dict.get? c.label.body.init a.1 = some row.state ∧
          ∃ crows, Dict.get? c.label.trace a.1 = some crows ∧ (crows = [] ∨ crows.head? = some row)) ∨
         (∃ dest init, CanSwitch w u.label.body u.label.trace idx a.1 dest init ∧
          Dict.get? c.label.body.mode a.1 = some dest ∧ Dict.get? c.label.body.init a.1 = some init)) := by
  obtain ⟨given, full, f, r, combo, ch, sp, h1, h2, h3, h4, cs, h5, h6, h7⟩ := edge_info hS hb hc
  obtain ⟨_, _, wf', _⟩ := returned_node hS.step hS.wf hS.returned hb
  obtain ⟨k1, k2⟩ := combo_canSwitch wf' sp h2 h3 h4
  dsimp only at k2
  have hlast : ∀ (rows : List (Row V)) (row : Row V), rows[f.idx]? = some row →
      (rows.take (f.idx + 1)).length = f.idx + 1 ∧ (rows.take (f.idx + 1)).getLast? = some row := by
    intro rows row hr
    have hlt : f.idx < rows.length := by
      by_contra hge
      rw [List.getElem?_eq_none (by omega)] at hr; cases hr
    have hl : (rows.take (f.idx + 1)).length = f.idx + 1 := by rw [List.length_take]; omega
    refine ⟨hl, ?_⟩
    rw [List.getLast?_eq_getElem?, hl, Nat.add_sub_cancel, List.getElem?_take, if_pos (by omega)]
    exact hr
  refine ⟨f.idx, ?_, ?_⟩
  · obtain ⟨a, rest, rows, row, e1, e2, e3, e4⟩ := cs.start
    obtain ⟨rows', c1, c2⟩ := h3 a (by rw [e1]; simp)
    rw [e2] at c1; cases c1
    exact ⟨a, rest, _, row, e1, c2, (hlast rows row e3).2, by rw [h5, e4]⟩
  · intro a ha
    obtain ⟨rows, c1, c2⟩ := h3 a ha
    by_cases hm : a.1 ∈ combo.map Trans.agent
    · obtain ⟨tr, htr, hta⟩ := List.mem_map.1 hm
      obtain ⟨hcan, rows', g1, g2⟩ := k2 tr htr
      rw [hta] at g1 hcan
      rw [c1] at g1; cases g1
      obtain ⟨m1, m2, m3⟩ := cs.moved tr htr
      rw [hta, ← h6] at m1 m2
      obtain ⟨q1, q2⟩ := hlast rows rows[f.idx] (List.getElem?_eq_getElem g2)
      exact ⟨_, _, c2, q1, q2, Or.inr ⟨_, _, hcan, m1, m2⟩⟩
    · obtain ⟨m1, rows', row, m2, m3, m4, m5⟩ := cs.stayed a ha hm
      rw [c1] at m2; cases m2
      rw [← h6] at m1 m4
      obtain ⟨q1, q2⟩ := hlast rows row m3
      have hhead : (rows.drop f.idx).head? = some row := by
        rw [List.head?_drop]; exact m3
      have hctr : ∃ crows, Dict.get? c.label.trace a.1 = some crows ∧ crows <+: rows.drop f.idx := by
        rcases h7 with h7 | h7
        · exact ⟨_, by rw [h7]; exact m5, List.prefix_refl _⟩
        · rw [h7]
          have ha' : a ∈ c.label.body.agents := by rw [h6, cs.agents]; exact ha
          have wfc : Body.WF c.label.body := by
            rw [h6]; exact ⟨by rw [cs.agents]; exact wf'.names, by rw [cs.agents]; exact wf'.logics⟩
          exact simStep_trace_prefix (n := ⟨k + 1, c.label.start, c.label.body, ch.trace⟩) wfc _ ha' m5
      refine ⟨_, row, c2, q1, q2, Or.inl ⟨m1, m4, ?_⟩⟩
      obtain ⟨crows, d1, d2⟩ := hctr
      refine ⟨crows, d1, ?_⟩
      cases crows with
      | nil => exact Or.inl rfl
      | cons x xs =>
        right
        obtain ⟨l, hl⟩ := d2
        rw [← hl] at hhead
        simpa using hhead

/-- If the agents' simulators start at the state they are given, then in every node of the tree every agent's trace starts
at the agent's initial state of that node. -/
theorem C01_trace_starts_at_init {w : World Env V} {cfg : Cfg (Body Env V) (Trace V) Hits} {body : Body Env V}
    {t u : SimTree Env V} (hS : Simulated w cfg body t)
    (hsim : ∀ a m i rem r, (w.sim a m i rem).head? = some r → r.state = i)
    {k : Nat} (hb : RTree.Below t u k) (a : String × Logic Env V) (ha : a ∈ u.label.body.agents)
    (rows : List (Row V)) (r : Row V) (hrows : Dict.get? u.label.trace a.1 = some rows) (hr : rows.head? = some r) :
    Dict.get? u.label.body.init a.1 = some r.state := by
  have hx := returned_explores hS.returned
  let I : Work (Body Env V) (Trace V) → Prop := fun n =>
    (n.body.agents = body.agents ∧ n.body.static = body.static) ∧
    ∀ a ∈ body.agents, ∀ rows r, Dict.get? n.trace a.1 = some rows → rows.head? = some r → Dict.get? n.body.init a.1 = some r.state
  have hwf : ∀ n : Work (Body Env V) (Trace V), n.body.agents = body.agents → Body.WF n.body := fun n hn =>
    ⟨by rw [hn]; exact hS.wf.names, by rw [hn]; exact hS.wf.logics⟩
  obtain ⟨st', b', tr', h1, h2⟩ := explores_below_inv (I := I) (P := problem cfg (cfg.parallel && decide (cfg.kind = .sim)))
    (by
      intro n _ hi c hc
      have hin := sim_inherits hS.step _ hS.wf n hi.1 c hc
      refine ⟨hin, ?_⟩
      simp only [problem, hS.step] at hc
      unfold simStep at hc
      cases ho : simulateOne w n (cfg.round10 (cfg.horizon - n.start)) with
      | error e => rw [ho] at hc; simp at hc
      | ok r =>
        rw [ho] at hc
        dsimp only at hc
        obtain ⟨full, f, sp⟩ := simulateOne_spec (hwf n hi.1.1) ho
        rcases sp.cases with ⟨_, g, _⟩ | ⟨_, _, g, _⟩ | ⟨_, _, _, g⟩
        · rw [g] at hc; simp at hc
        · rw [g] at hc; simp at hc
        · obtain ⟨combo, _, cs⟩ := forall₂_mem_right g hc
          intro a ha rows r hg hr
          dsimp only at hg ⊢
          by_cases hm : a.1 ∈ combo.map Trans.agent
          · obtain ⟨tr, htr, hta⟩ := List.mem_map.1 hm
            have := (cs.moved tr htr).2.2
            rw [hta, hg] at this; cases this
          · obtain ⟨_, rows', row, m2, m3, m4, m5⟩ := cs.stayed a (by rw [hi.1.1]; exact ha) hm
            rw [hg] at m5; cases m5
            rw [List.head?_drop, m3] at hr
            cases hr; exact m4)
    hb hx ⟨⟨rfl, rfl⟩, by simp⟩
  rw [Nat.zero_add] at h1 h2
  obtain ⟨-, e2, e3, h3⟩ := explores_node h1
  subst e2; subst e3
  have ha' : a ∈ body.agents := by rw [← h2.1.1]; exact ha
  rcases h3 with ⟨_, _, g, _⟩ | ⟨_, g, _⟩
  · rw [g] at hrows; exact h2.2 a ha' rows r hrows hr
  · rw [g] at hrows
    simp only [problem, hS.step] at hrows
    cases hg : Dict.get? tr' a.1 with
    | some rows0 =>
      obtain ⟨crows, q1, q2⟩ := simStep_trace_prefix (w := w) (n := ⟨k, u.label.start, u.label.body, tr'⟩)
        (hwf _ h2.1.1) (cfg.round10 (cfg.horizon - u.label.start)) ha hg
      rw [hrows] at q1; cases q1
      refine h2.2 a ha' rows0 r hg ?_
      obtain ⟨l, rfl⟩ := q2
      cases rows with
      | nil => simp at hr
      | cons x xs => simpa using hr
    | none =>
      unfold simStep at hrows
      cases ho : simulateOne w ⟨k, u.label.start, u.label.body, tr'⟩ (cfg.round10 (cfg.horizon - u.label.start)) with
      | error e => rw [ho] at hrows; dsimp only at hrows; rw [hg] at hrows; cases hrows
      | ok res =>
        rw [ho] at hrows
        dsimp only at hrows
        obtain ⟨full, f, sp⟩ := simulateOne_spec (hwf ⟨k, u.label.start, u.label.body, tr'⟩ h2.1.1) ho
        have hf := sp.traces a ha
        simp only [hg] at hf
        obtain ⟨m, i, f1, f2, f3⟩ := hf
        have hpre : rows <+: (w.sim a.1 m i (cfg.round10 (cfg.horizon - u.label.start))).map
            (fun r => (⟨r.time + u.label.start, r.state⟩ : Row V)) := by
          have cut : ∀ j, CutTraces u.label.body (List.take j) full res.trace → rows <+:
              (w.sim a.1 m i (cfg.round10 (cfg.horizon - u.label.start))).map
                (fun r => (⟨r.time + u.label.start, r.state⟩ : Row V)) := by
            intro j hc
            obtain ⟨rows', g1, g2⟩ := hc a ha
            rw [f3] at g1; cases g1
            rw [hrows] at g2; cases g2
            exact List.take_prefix _ _
          rcases sp.cases with ⟨_, _, g⟩ | ⟨_, _, _, g⟩ | ⟨_, _, g, _⟩
          · split at g
            · rw [g, f3] at hrows; cases hrows; exact List.prefix_refl _
            · exact cut _ g
          · rw [g, f3] at hrows; cases hrows; exact List.prefix_refl _
          · exact cut _ g
        obtain ⟨l, hl⟩ := hpre
        cases rows with
        | nil => simp at hr
        | cons x xs =>
          have hx : x = r := by simpa using hr
          subst hx
          have : ((w.sim a.1 m i (cfg.round10 (cfg.horizon - u.label.start))).map
            (fun r => (⟨r.time + u.label.start, r.state⟩ : Row V))).head? = some x := by rw [← hl]; rfl
          rw [List.head?_map] at this
          obtain ⟨x0, hx0, hx1⟩ := Option.map_eq_some_iff.1 this
          rw [f2, ← hx1, ← hsim _ _ _ _ _ hx0]

/-! ## C02 -/

/-- Across every edge an agent's mode changes only through a transition with an enabled guard, allowed by the map, at the
last sample of the parent's trace; agents and static parameters are inherited. -/
theorem C02_only_guarded_mode_changes {w : World Env V} {cfg : Cfg (Body Env V) (Trace V) Hits} {body : Body Env V}
    {t u c : SimTree Env V} (hS : Simulated w cfg body t) {k : Nat} (hb : RTree.Below t u k) (hc : c ∈ u.kids) :
    c.label.body.agents = u.label.body.agents ∧ c.label.body.static = u.label.body.static ∧
    ∀ a ∈ u.label.body.agents, Dict.get? c.label.body.mode a.1 ≠ Dict.get? u.label.body.mode a.1 →
      ∃ rows dest init env, Dict.get? u.label.trace a.1 = some rows ∧
        Dict.get? c.label.body.mode a.1 = some dest ∧
        Sees w u.label.body u.label.trace (rows.length - 1) a.1 env ∧ Enabled a.2 env ∧
        CanSwitch w u.label.body u.label.trace (rows.length - 1) a.1 dest init := by
  obtain ⟨given, full, f, r, combo, ch, sp, h1, h2, h3, h4, cs, h5, h6, h7⟩ := edge_info hS hb hc
  obtain ⟨_, _, wf', _⟩ := returned_node hS.step hS.wf hS.returned hb
  refine ⟨by rw [h6, cs.agents], by rw [h6, cs.static], ?_⟩
  intro a ha hne
  obtain ⟨idx, _, hall⟩ := C01_switch_continuous hS hb hc
  obtain ⟨rows, row, r1, r2, r3, h | ⟨dest, init, g1, g2, g3⟩⟩ := hall a ha
  · exact absurd h.1 hne
  · have hidx : rows.length - 1 = idx := by omega
    have hg1 := g1
    obtain ⟨dl, env, rows', row', mode, q1, q2, q3, q4, q5, q6, q7⟩ := g1
    have hdl : dl = a.2 := by
      have e1 := Dict.get?_of_mem wf'.names q1.1
      have e2 := Dict.get?_of_mem wf'.names (k := a.1) (v := a.2) ha
      rw [e1] at e2; injection e2
    refine ⟨rows, dest, init, env, r1, g2, by rw [hidx]; exact q2, ?_, by rw [hidx]; exact hg1⟩
    obtain ⟨choice, f1, _, ⟨v, f3⟩, _⟩ := q6
    obtain ⟨p, hp⟩ := Option.isSome_iff_exists.1 f3
    obtain ⟨p1, _, p3⟩ := f1 v p hp
    rw [← hdl]; exact ⟨p, p1, p3⟩

/-! ## C03 -/

/-- A node with children: with `idx + 1` the number of rows left in its trace, a guard of some agent holds at sample `idx`
of the (uncut) traces, no assert fails there, and at no earlier sample does a guard hold or an assert fail. (Asserts of
agents without transitions are not looked at, see `C04_assert_without_transition_violated`; hence `_partial`.) -/
theorem C03_first_switch_partial {w : World Env V} {cfg : Cfg (Body Env V) (Trace V) Hits} {body : Body Env V}
    {t u : SimTree Env V} (hS : Simulated w cfg body t) {k : Nat} (hb : RTree.Below t u k) (hk : u.kids ≠ []) :
    ∃ (given full : Trace V) (idx : Nat), Inherited w k u.label.body given ∧
      FullTraces w u.label.body u.label.start (cfg.round10 (cfg.horizon - u.label.start)) given full ∧
      CutTraces u.label.body (List.take (idx + 1)) full u.label.trace ∧
      ¬ NoGuard w u.label.body full idx ∧ NoFailure false w u.label.body full idx ∧
      ∀ j, j < idx → NoGuard w u.label.body full j ∧ NoFailure false w u.label.body full j := by
  obtain ⟨_, _, wf', given, hg0, h⟩ := returned_node hS.step hS.wf hS.returned hb
  rcases h with ⟨_, h, _⟩ | ⟨_, res, hres, h1, _, h2⟩
  · exact absurd h hk
  · obtain ⟨c, hc⟩ := List.exists_mem_of_ne_nil _ hk
    obtain ⟨ch, hch, _⟩ := forall₂_mem_right h2 hc
    unfold simStep at hres
    cases ho : simulateOne w ⟨k, u.label.start, u.label.body, given⟩ (cfg.round10 (cfg.horizon - u.label.start)) with
    | error e => rw [ho] at hres; rw [hres] at hch; simp at hch
    | ok r =>
      rw [ho] at hres
      obtain ⟨full, f, sp⟩ := simulateOne_spec wf' ho
      rw [hres] at hch h1
      rcases sp.cases with ⟨_, g, _⟩ | ⟨_, _, g, _⟩ | ⟨g1, g0, g2, g3⟩
      · dsimp only at hch; rw [g] at hch; simp at hch
      · dsimp only at hch; rw [g] at hch; simp at hch
      · obtain ⟨_, _, _, _, fs⟩ := sp.found
        refine ⟨given, full, f.idx, hg0, sp.traces, by rw [h1]; exact g2, ?_, ?_, fs.before⟩
        all_goals
          rcases fs.cases with ⟨_, x, _⟩ | ⟨s, _, _, x, _⟩ | ⟨s, ss, x1, x2, x3, x4⟩
        · exact absurd x g0
        · rw [x] at g1; cases g1
        · obtain ⟨a, dl, env, y1, y2, y3⟩ := ss.some x2
          exact fun hn => hn a dl env (mem_guardAgents.1 y1).1 y2 y3
        · exact absurd x g0
        · rw [x] at g1; cases g1
        · intro a dl env hc hp hs
          by_contra hne
          have := (ss.asserts a (failing dl env)).2 ⟨dl, env, mem_guardAgents.2 ⟨hc, by simpa using hp⟩, hs, rfl, hne⟩
          rw [x1] at this; simp at this

/-- An expanded node whose worker raised no exception and in whose traces no guard ever holds and no assert ever fails has
no children, records no hit and keeps its full traces. -/
theorem C03_quiet_node {w : World Env V} {cfg : Cfg (Body Env V) (Trace V) Hits} {body : Body Env V}
    {t u : SimTree Env V} (hS : Simulated w cfg body t) (hseq : cfg.parallel = false) {k : Nat}
    (hb : RTree.Below t u k) (hx : Expanded cfg k u) (h : Option (Dict String (List String)))
    (hok : u.label.hits = .ok h) :
    ∃ (given full : Trace V), Inherited w k u.label.body given ∧
      FullTraces w u.label.body u.label.start (cfg.round10 (cfg.horizon - u.label.start)) given full ∧
      ((∀ i, NoGuard w u.label.body full i ∧ NoFailure false w u.label.body full i) →
        u.kids = [] ∧ h = none ∧ u.label.trace = full) := by
  obtain ⟨_, _, wf', given, hg0, h'⟩ := returned_node hS.step hS.wf hS.returned hb
  rcases h' with ⟨hn, _⟩ | ⟨_, res, hres, h1, hh, h2⟩
  · exact absurd hx hn
  · unfold simStep at hres
    cases ho : simulateOne w ⟨k, u.label.start, u.label.body, given⟩ (cfg.round10 (cfg.horizon - u.label.start)) with
    | error e =>
      rw [ho] at hres; rw [hres] at hh
      rw [hh hseq] at hok; cases hok
    | ok r =>
      rw [ho] at hres
      obtain ⟨full, f, sp⟩ := simulateOne_spec wf' ho
      rw [hres] at h1 h2 hh
      have hhit : h = f.asserts := by
        have := hh hseq
        rw [hok] at this
        injection this with this
        rw [this, sp.hits]
      refine ⟨given, full, hg0, sp.traces, ?_⟩
      intro hq
      obtain ⟨_, _, _, _, fs⟩ := sp.found
      rcases fs.cases with ⟨x1, x2, _⟩ | ⟨s, ss, x1, x2, _⟩ | ⟨s, ss, x1, x2, _⟩
      · rcases sp.cases with ⟨g, _⟩ | ⟨_, _, g1, g2⟩ | ⟨_, g, _⟩
        · exact absurd x1 g
        · dsimp only at h1 h2
          rw [g1] at h2
          exact ⟨List.forall₂_nil_left_iff.1 h2, by rw [hhit, x1], by rw [h1, g2]⟩
        · exact absurd x2 g
      · exfalso
        obtain ⟨⟨a, l⟩, hal⟩ := List.exists_mem_of_ne_nil _ x1
        have : (Dict.get? s.asserts a).isSome := (Dict.isSome_get?_iff _ _).2 (List.mem_map_of_mem (f := Prod.fst) hal)
        obtain ⟨labels, hl⟩ := Option.isSome_iff_exists.1 this
        obtain ⟨dl, env, y1, y2, y3, y4⟩ := (ss.asserts a labels).1 hl
        obtain ⟨z1, z2⟩ := mem_guardAgents.1 y1
        exact y4 (by rw [y3]; exact (hq f.idx).2 a dl env z1 (Or.inr z2) y2)
      · exfalso
        obtain ⟨a, dl, env, y1, y2, y3⟩ := ss.some x2
        exact (hq f.idx).1 a dl env (mem_guardAgents.1 y1).1 y2 y3

/-! ## C04 -/

/-- Sequential run, expanded node whose worker raised no exception: the node records a hit iff at some sample an assert (of
an agent that has transitions) fails before or at the first sample with an enabled guard; then the recorded labels are
exactly, per agent, those of the asserts with true precondition and false condition at the first such sample, the node has
no children, and without `unsafe_continue` its traces end just before that sample. -/
theorem C04_assert_reported_partial {w : World Env V} {cfg : Cfg (Body Env V) (Trace V) Hits} {body : Body Env V}
    {t u : SimTree Env V} (hS : Simulated w cfg body t) (hseq : cfg.parallel = false) {k : Nat}
    (hb : RTree.Below t u k) (hx : Expanded cfg k u) (h : Option (Dict String (List String)))
    (hok : u.label.hits = .ok h) :
    ∃ (given full : Trace V), Inherited w k u.label.body given ∧
      FullTraces w u.label.body u.label.start (cfg.round10 (cfg.horizon - u.label.start)) given full ∧
      (∀ i, (∀ j, j < i → NoGuard w u.label.body full j ∧ NoFailure false w u.label.body full j) →
        ¬ NoFailure false w u.label.body full i → (∃ a rows rest, full = (a, rows) :: rest ∧ i < rows.length) →
        ∃ d, h = some d ∧ d ≠ [] ∧ u.kids = [] ∧
          (∀ a labels, Dict.get? d a = some labels ↔ ∃ dl env, Controlled u.label.body a dl ∧ dl.paths ≠ [] ∧
            Sees w u.label.body full i a env ∧ labels = failing dl env ∧ labels ≠ []) ∧
          (w.unsafeContinue = false → CutTraces u.label.body (List.take i) full u.label.trace)) ∧
      (∀ d, h = some d → ∃ i, (∀ j, j < i → NoGuard w u.label.body full j ∧ NoFailure false w u.label.body full j) ∧
        ¬ NoFailure false w u.label.body full i ∧ ∃ a rows rest, full = (a, rows) :: rest ∧ i < rows.length) := by
  obtain ⟨_, _, wf', given, hg0, h'⟩ := returned_node hS.step hS.wf hS.returned hb
  rcases h' with ⟨hn, _⟩ | ⟨_, res, hres, h1, hh, h2⟩
  · exact absurd hx hn
  · unfold simStep at hres
    cases ho : simulateOne w ⟨k, u.label.start, u.label.body, given⟩ (cfg.round10 (cfg.horizon - u.label.start)) with
    | error e =>
      rw [ho] at hres; rw [hres] at hh
      rw [hh hseq] at hok; cases hok
    | ok r =>
      rw [ho] at hres
      obtain ⟨full, f, sp⟩ := simulateOne_spec wf' ho
      rw [hres] at h1 h2 hh
      have hhit : h = f.asserts := by
        have := hh hseq
        rw [hok] at this
        injection this with this
        rw [this, sp.hits]
      obtain ⟨a0, rows0, rest0, hfull, fs⟩ := sp.found
      -- an assert failure at the sample where the scan stopped
      have hfail : ∀ s, SampleSpec w u.label.body full f.idx (guardAgents u.label.body) s → s.asserts ≠ [] →
          ¬ NoFailure false w u.label.body full f.idx := by
        intro s ss hne hno
        obtain ⟨⟨a, l⟩, hal⟩ := List.exists_mem_of_ne_nil _ hne
        have : (Dict.get? s.asserts a).isSome := (Dict.isSome_get?_iff _ _).2 (List.mem_map_of_mem (f := Prod.fst) hal)
        obtain ⟨labels, hl⟩ := Option.isSome_iff_exists.1 this
        obtain ⟨dl, env, y1, y2, y3, y4⟩ := (ss.asserts a labels).1 hl
        obtain ⟨z1, z2⟩ := mem_guardAgents.1 y1
        exact y4 (by rw [y3]; exact hno a dl env z1 (Or.inr z2) y2)
      refine ⟨given, full, hg0, sp.traces, ?_, ?_⟩
      · intro i hbefore hi hlen
        obtain ⟨a1, rows1, rest1, e1, e2⟩ := hlen
        rw [hfull] at e1; cases e1
        have hidx : f.idx = i := by
          rcases Nat.lt_trichotomy f.idx i with hlt | heq | hgt
          · exfalso
            have hq := hbefore _ hlt
            rcases fs.cases with ⟨_, _, _, x⟩ | ⟨s, ss, x1, _⟩ | ⟨s, ss, _, x2, _⟩
            · omega
            · exact hfail s ss x1 hq.2
            · obtain ⟨a, dl, env, y1, y2, y3⟩ := ss.some x2
              exact hq.1 a dl env (mem_guardAgents.1 y1).1 y2 y3
          · exact heq
          · exact absurd (fs.before i hgt).2 hi
        subst hidx
        rcases fs.cases with ⟨_, _, x, _⟩ | ⟨s, ss, x1, x2, x3⟩ | ⟨s, ss, x1, _⟩
        · exact absurd x.2 hi
        · have hnext : r.next = [] ∧ (w.unsafeContinue = false → CutTraces u.label.body (List.take f.idx) full r.trace) := by
            rcases sp.cases with ⟨_, g1, g2⟩ | ⟨g, _⟩ | ⟨g, _⟩
            · exact ⟨g1, fun hu => by rw [hu] at g2; exact g2⟩
            · rw [x2] at g; cases g
            · rw [x2] at g; cases g
          refine ⟨s.asserts, by rw [hhit, x2], x1, ?_, ?_, ?_⟩
          · dsimp only at h2; rw [hnext.1] at h2; exact List.forall₂_nil_left_iff.1 h2
          · intro a labels
            rw [ss.asserts]
            simp only [mem_guardAgents]
            constructor
            · rintro ⟨dl, env, ⟨z1, z2⟩, z3, z4, z5⟩; exact ⟨dl, env, z1, z2, z3, z4, z5⟩
            · rintro ⟨dl, env, z1, z2, z3, z4, z5⟩; exact ⟨dl, env, ⟨z1, z2⟩, z3, z4, z5⟩
          · intro hu; rw [h1]; exact hnext.2 hu
        · exfalso
          apply hi
          intro a dl env hc hp hs
          by_contra hne
          have := (ss.asserts a (failing dl env)).2 ⟨dl, env, mem_guardAgents.2 ⟨hc, by simpa using hp⟩, hs, rfl, hne⟩
          rw [x1] at this; simp at this
      · intro d hd
        rw [hhit] at hd
        refine ⟨f.idx, fs.before, ?_, a0, rows0, rest0, hfull, fs.lt⟩
        rcases fs.cases with ⟨x, _⟩ | ⟨s, ss, x1, _⟩ | ⟨_, _, _, _, x, _⟩
        · rw [x] at hd; cases hd
        · exact hfail s ss x1
        · rw [x] at hd; cases hd

/-! ## C05, C51 -/

theorem choose_combo {α : Type} {d : Dict String (List α)} {P : String → α → Prop}
    (h : ∀ a ts, (a, ts) ∈ d → ∃ x ∈ ts, P a x) : ∃ combo ∈ product (d.map Prod.snd), List.Forall₂ (fun kv x => P kv.1 x) d combo := by
  induction d with
  | nil => exact ⟨[], by simp [product], .nil⟩
  | cons p d ih =>
    obtain ⟨combo, h1, h2⟩ := ih (fun a ts hm => h a ts (by simp [hm]))
    obtain ⟨x, hx, hp⟩ := h p.1 p.2 (by simp)
    refine ⟨x :: combo, ?_, .cons hp h2⟩
    rw [mem_product] at h1 ⊢
    exact .cons hx h1

/-- Sequential run, expanded node whose worker raised no exception. If at sample `i` some agent can make a transition
permitted by the map, no assert fails there, and no guard held and no assert failed earlier, then the node switches at `i`,
and for every choice, for each agent that can switch, of the destination of one of its possible transitions there is a child
in which each of those agents has exactly that destination and every other agent its old mode.
(Transitions of one agent that lead to the same mode are explored only once, hence `_partial`; see
`C05_resets_dropped_violated`.) -/
theorem C05_exhaustive_partial {w : World Env V} {cfg : Cfg (Body Env V) (Trace V) Hits} {body : Body Env V}
    {t u : SimTree Env V} (hS : Simulated w cfg body t) (hseq : cfg.parallel = false) {k : Nat}
    (hb : RTree.Below t u k) (hx : Expanded cfg k u) (h : Option (Dict String (List String)))
    (hok : u.label.hits = .ok h) :
    ∃ (given full : Trace V), Inherited w k u.label.body given ∧
      FullTraces w u.label.body u.label.start (cfg.round10 (cfg.horizon - u.label.start)) given full ∧
      ∀ i, (∀ j, j < i → NoGuard w u.label.body full j ∧ NoFailure false w u.label.body full j) →
        NoFailure false w u.label.body full i → (∃ a rows rest, full = (a, rows) :: rest ∧ i < rows.length) →
        (∃ a dest init, CanSwitch w u.label.body full i a dest init) →
        CutTraces u.label.body (List.take (i + 1)) full u.label.trace ∧
        ∀ pick : String → List V,
          (∀ a, (∃ dest init, CanSwitch w u.label.body full i a dest init) → ∃ init, CanSwitch w u.label.body full i a (pick a) init) →
          ∃ c ∈ u.kids, ∀ a ∈ u.label.body.agents, 
            ((∃ dest init, CanSwitch w u.label.body full i a.1 dest init) → Dict.get? c.label.body.mode a.1 = some (pick a.1)) ∧
            ((¬ ∃ dest init, CanSwitch w u.label.body full i a.1 dest init) →
              Dict.get? c.label.body.mode a.1 = Dict.get? u.label.body.mode a.1) := by
  obtain ⟨_, _, wf', given, hg0, h'⟩ := returned_node hS.step hS.wf hS.returned hb
  rcases h' with ⟨hn, _⟩ | ⟨_, res, hres, h1, hh, h2⟩
  · exact absurd hx hn
  · unfold simStep at hres
    cases ho : simulateOne w ⟨k, u.label.start, u.label.body, given⟩ (cfg.round10 (cfg.horizon - u.label.start)) with
    | error e =>
      rw [ho] at hres; rw [hres] at hh
      rw [hh hseq] at hok; cases hok
    | ok r =>
      rw [ho] at hres
      obtain ⟨full, f, sp⟩ := simulateOne_spec wf' ho
      rw [hres] at h1 h2 hh
      obtain ⟨a0, rows0, rest0, hfull, fs⟩ := sp.found
      refine ⟨given, full, hg0, sp.traces, ?_⟩
      intro i hbefore hnofail hlen hcan
      obtain ⟨a1, rows1, rest1, e1, e2⟩ := hlen
      rw [hfull] at e1; cases e1
      have hen : ¬ NoGuard w u.label.body full i := by
        obtain ⟨a, dest, init, dl, env, rows, row, mode, q1, q2, _, _, _, q6, _⟩ := hcan
        obtain ⟨choice, f1, _, ⟨v, f3⟩, _⟩ := q6
        obtain ⟨p, hp⟩ := Option.isSome_iff_exists.1 f3
        obtain ⟨p1, _, p3⟩ := f1 v p hp
        exact fun hn => hn a dl env q1 q2 ⟨p, p1, p3⟩
      have hnoas : ∀ j s, NoFailure false w u.label.body full j → SampleSpec w u.label.body full j (guardAgents u.label.body) s →
          s.asserts = [] := by
        intro j s hno ss
        by_contra hne
        obtain ⟨⟨a, l⟩, hal⟩ := List.exists_mem_of_ne_nil _ hne
        have : (Dict.get? s.asserts a).isSome := (Dict.isSome_get?_iff _ _).2 (List.mem_map_of_mem (f := Prod.fst) hal)
        obtain ⟨labels, hl⟩ := Option.isSome_iff_exists.1 this
        obtain ⟨dl, env, y1, y2, y3, y4⟩ := (ss.asserts a labels).1 hl
        obtain ⟨z1, z2⟩ := mem_guardAgents.1 y1
        exact y4 (by rw [y3]; exact hno a dl env z1 (Or.inr z2) y2)
      have hidx : f.idx = i := by
        rcases Nat.lt_trichotomy f.idx i with hlt | heq | hgt
        · exfalso
          have hq := hbefore _ hlt
          rcases fs.cases with ⟨_, _, _, x⟩ | ⟨s, ss, x1, _⟩ | ⟨s, ss, _, x2, _⟩
          · omega
          · exact x1 (hnoas _ s hq.2 ss)
          · obtain ⟨a, dl, env, y1, y2, y3⟩ := ss.some x2
            exact hq.1 a dl env (mem_guardAgents.1 y1).1 y2 y3
        · exact heq
        · exact absurd (fs.before i hgt).1 hen
      subst hidx
      obtain ⟨s, ss, x1, x2, x3, hcol⟩ : ∃ s, SampleSpec w u.label.body full f.idx (guardAgents u.label.body) s ∧
          s.asserts = [] ∧ s.satisfied ≠ [] ∧ f.asserts = none ∧ collect w u.label.body s.satisfied = .ok f.trans := by
        rcases fs.cases with ⟨_, _, x, _⟩ | ⟨s, ss, x1, _⟩ | x
        · exact absurd x.1 hen
        · exact absurd (hnoas _ s hnofail ss) x1
        · exact x
      obtain ⟨k1, k2, k3⟩ := collect_spec hcol
      -- membership in the transition table
      have hdict : ∀ a dest init, CanSwitch w u.label.body full f.idx a dest init →
          ∃ ts, (a, ts) ∈ f.trans ∧ ∃ t ∈ ts, t.dest = dest := by
        rintro a dest init ⟨dl, env, rows, row, mode, q1, q2, q3, q4, q5, q6, q7⟩
        have hp : dl.paths ≠ [] := by
          obtain ⟨choice, f1, _, ⟨v, f3⟩, _⟩ := q6
          obtain ⟨p, hp⟩ := Option.isSome_iff_exists.1 f3
          exact List.ne_nil_of_mem (f1 v p hp).1
        obtain ⟨t, ht, ta, td, ti⟩ := ss.complete a dl env rows row mode dest init (mem_guardAgents.2 ⟨q1, hp⟩) q2 q3 q4 q5
          (hnofail a dl env q1 (Or.inr hp) q2) q6
        obtain ⟨dl', src, g1, g2, g3⟩ := k3 t ht
        have e1 := Dict.get?_of_mem wf'.names q1.1
        rw [ta, e1] at g1; cases g1
        rw [ta, q5] at g2; cases g2
        rw [td, ta] at g3
        exact g3 q7
      have hconv : ∀ a ts, (a, ts) ∈ f.trans → ∀ t ∈ ts, t.agent = a ∧ CanSwitch w u.label.body full f.idx a t.dest t.init := by
        intro a ts hm t ht
        obtain ⟨q1, q2, dl', src, q3, q4, q5⟩ := (k2 a ts hm).2.2 t ht
        subst q2
        obtain ⟨dl, env, rows, row, mode, p1, p2, p3, p4, p5, p6, p7⟩ := ss.sound t q1
        have hcont := (mem_guardAgents.1 p1).1
        have hdl : dl = dl' := by
          have := Dict.get?_of_mem wf'.names hcont.1
          rw [this] at q3; injection q3
        subst hdl
        rw [p5] at q4; cases q4
        exact ⟨rfl, dl, env, rows, row, src, hcont, p2, p3, p4, p5, p7, q5⟩
      have htne : f.trans ≠ [] := by
        obtain ⟨a, dest, init, hc⟩ := hcan
        obtain ⟨ts, hm, _⟩ := hdict a dest init hc
        exact List.ne_nil_of_mem hm
      obtain ⟨g2, g3⟩ : CutTraces u.label.body (List.take (f.idx + 1)) full r.trace ∧
          List.Forall₂ (ChildSpec u.label.body full f.idx) (product (f.trans.map Prod.snd)) r.next := by
        rcases sp.cases with ⟨g, _⟩ | ⟨_, g, _⟩ | ⟨_, _, g2, g3⟩
        · exact absurd x3 g
        · exact absurd g htne
        · exact ⟨g2, g3⟩
      refine ⟨by rw [h1]; exact g2, ?_⟩
      intro pick hpick
      obtain ⟨combo, hcm, hforall⟩ := choose_combo (d := f.trans)
        (P := fun a (t : Trans Env V) => t.agent = a ∧ t.dest = pick a) (by
          intro a ts hm
          obtain ⟨t, ht⟩ := List.exists_mem_of_ne_nil _ (k2 a ts hm).1
          obtain ⟨init, hi⟩ := hpick a ⟨_, _, (hconv a ts hm t ht).2⟩
          obtain ⟨ts', hm', t', ht', hd'⟩ := hdict a (pick a) init hi
          have : ts' = ts := by
            have e1 := Dict.get?_of_mem k1 hm
            have e2 := Dict.get?_of_mem k1 hm'
            rw [e1] at e2; injection e2 with e2; exact e2.symm
          subst this
          exact ⟨t', ht', (hconv a ts' hm t' ht').1, hd'⟩)
      obtain ⟨ch, hch, cs⟩ := forall₂_mem_left g3 hcm
      obtain ⟨c, hc, e1, e2, _⟩ := forall₂_mem_left h2 hch
      have hkeys : combo.map Trans.agent = f.trans.map Prod.fst :=
        combo_agents (fun a ts hm t ht => (hconv a ts hm t ht).1) hcm
      refine ⟨c, hc, ?_⟩
      intro a ha
      constructor
      · rintro ⟨dest, init, hsw⟩
        obtain ⟨ts, hm, _⟩ := hdict a.1 dest init hsw
        obtain ⟨t', ht', hta, htd⟩ := forall₂_mem_left hforall hm
        dsimp only at hta htd
        have := (cs.moved t' ht').1
        rw [hta, htd, ← e2] at this
        exact this
      · intro hno
        have : a.1 ∉ combo.map Trans.agent := by
          rw [hkeys]
          intro hmem
          obtain ⟨⟨a', ts⟩, hm, he⟩ := List.mem_map.1 hmem
          obtain ⟨t', ht'⟩ := List.exists_mem_of_ne_nil _ (k2 a' ts hm).1
          dsimp only at he
          exact hno ⟨_, _, by rw [← he]; exact (hconv a' ts hm t' ht').2⟩
        rw [e2]; exact (cs.stayed a ha this).1

/-- What does hold of C51: if no guard held before the first sample at which a permitted transition is enabled (and no
assert fails up to there), the node has a child, and it is cut at that sample. -/
theorem C51_progress_partial {w : World Env V} {cfg : Cfg (Body Env V) (Trace V) Hits} {body : Body Env V}
    {t u : SimTree Env V} (hS : Simulated w cfg body t) (hseq : cfg.parallel = false) {k : Nat}
    (hb : RTree.Below t u k) (hx : Expanded cfg k u) (h : Option (Dict String (List String)))
    (hok : u.label.hits = .ok h) :
    ∃ (given full : Trace V), Inherited w k u.label.body given ∧
      FullTraces w u.label.body u.label.start (cfg.round10 (cfg.horizon - u.label.start)) given full ∧
      ∀ i, (∀ j, j < i → NoGuard w u.label.body full j ∧ NoFailure false w u.label.body full j) →
        NoFailure false w u.label.body full i → (∃ a rows rest, full = (a, rows) :: rest ∧ i < rows.length) →
        (∃ a dest init, CanSwitch w u.label.body full i a dest init) →
        u.kids ≠ [] ∧ CutTraces u.label.body (List.take (i + 1)) full u.label.trace := by
  classical
  obtain ⟨given, full, h1, h2, h3⟩ := C05_exhaustive_partial hS hseq hb hx h hok
  refine ⟨given, full, h1, h2, ?_⟩
  intro i a1 a2 a3 a4
  obtain ⟨b1, b2⟩ := h3 i a1 a2 a3 a4
  obtain ⟨c, hc, _⟩ := b2 (fun a => if hh : ∃ dest init, CanSwitch w u.label.body full i a dest init then hh.choose else [])
    (by intro a ha; simp only [ha, dif_pos]; exact ha.choose_spec)
  exact ⟨List.ne_nil_of_mem hc, b1⟩

end Verif.Props
