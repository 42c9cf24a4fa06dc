import Verif.Proofs.Engine

/-!
# C06, C07, C08: the exploration loop behind `Scenario.simulate` and `Scenario.verify`

`run cfg picks (St.init cfg body trace)` is the loop under the schedule `picks` (which finished remote task `ray.wait`
hands back at each iteration). `Explores`, `Denotes` and `problem` are the specification (`Spec/Tree.lean`).
-/

set_option autoImplicit false

namespace Verif.Props
open Verif.Engine Verif.Spec

variable {X T A : Type}

/-! ## C06 -/

/-- No schedule makes the loop raise an exception, and in every state the loop passes through the node at position `i` of
`self.nodes` has id `i` (so `self.nodes[id]` always finds the node the result belongs to). -/
theorem C06_ids_are_positions (cfg : Cfg X T A) (ha : 0 < cfg.ahead) (body : X) (trace : T) (picks : List Nat) :
    ∃ s fin, run cfg picks (St.init cfg body trace) = .ok (s, fin) ∧
      ∀ (i : Nat) (r : Rec X T A), s.nodes[i]? = some r → r.id = i := by
  obtain ⟨s, fin, h1, h2, _⟩ := run_spec ha picks (inv_init cfg body trace)
  obtain ⟨o, hc⟩ := h2.core
  exact ⟨s, fin, h1, hc.ids⟩

/-- The ids of the nodes of the returned tree are exactly `0 … n-1`, each once, whatever the schedule. -/
theorem C06_ids_unique_and_dense (cfg : Cfg X T A) (ha : 0 < cfg.ahead) (body : X) (trace : T) (picks : List Nat)
    (s : St X T A) (h : run cfg picks (St.init cfg body trace) = .ok (s, true))
    (t : RTree (Rec X T A)) (ht : Denotes s.nodes 0 t) :
    (t.flatten.map Rec.id).Perm ((List.range t.flatten.length).map (fun (i : Nat) => (i : Int))) := by
  obtain ⟨s', fin, h1, h2, h3⟩ := run_spec ha picks (inv_init cfg body trace)
  rw [h] at h1; cases h1
  obtain ⟨o, hc⟩ := h2.core
  have hp := flatten_ids hc ht
  have hlen : t.flatten.length = s.nodes.length := by simpa using hp.length_eq
  obtain ⟨g1, _⟩ := flatten_perm hc.ids ht
  have e : t.flatten.map Rec.id = (t.flatten.map (fun r => r.id.toNat)).map (fun (i : Nat) => (i : Int)) := by
    rw [List.map_map]
    apply List.map_congr_left
    intro r hr
    have := hc.ids _ _ (g1 r hr)
    simpa using this
  rw [e, hlen]
  exact hp.map _

/-! ## C07 -/

/-- When the loop ends, `AnalysisTree(root)` denotes a tree, and that tree is the recursive exploration of the root:
nothing depends on the schedule. (In a parallel simulation run the recorded assertion hits are lost, which is why
`problem` has the flag; see `C07_parallel_simulate_loses_hits_violated`.) -/
theorem C07_loop_computes_exploration (cfg : Cfg X T A) (ha : 0 < cfg.ahead) (body : X) (trace : T) (picks : List Nat)
    (s : St X T A) (h : run cfg picks (St.init cfg body trace) = .ok (s, true)) :
    ∃ t, Denotes s.nodes 0 t ∧
      Explores (problem cfg (cfg.parallel && decide (cfg.kind = .sim))) 0 (cfg.roundN 0) body trace
        (t.map Label.ofRec) := by
  obtain ⟨s', fin, h1, h2, h3⟩ := run_spec ha picks (inv_init cfg body trace)
  rw [h] at h1; cases h1
  obtain ⟨o, hc⟩ := h2.core
  obtain ⟨hq, hr⟩ := h3 rfl
  rw [hq, hr] at hc
  obtain ⟨r, e0, e1, e2, e3, e4⟩ := hc.root
  obtain ⟨t, d1, d2⟩ := denotes_of_core (by simpa using hc) s.nodes.length 0 r (by omega) e0
  rw [e1, e2, e3, e4] at d2
  exact ⟨t, d1, d2⟩

/-- Two finished runs that differ in the schedule, in the degree of parallelism and, for verification, in being parallel
at all, return the same tree up to node ids. -/
theorem C07_schedule_independent (cfg cfg' : Cfg X T A) (ha : 0 < cfg.ahead) (ha' : 0 < cfg'.ahead)
    (hk : cfg'.kind = cfg.kind) (hm : cfg'.maxHeight = cfg.maxHeight) (hh : cfg'.horizon = cfg.horizon)
    (hr : cfg'.round10 = cfg.round10) (hn : cfg'.roundN = cfg.roundN) (hs : cfg'.step = cfg.step)
    (h0 : cfg'.noHits = cfg.noHits) (hp : cfg.kind = .sim → cfg'.parallel = cfg.parallel)
    (body : X) (trace : T) (picks picks' : List Nat) (s s' : St X T A)
    (h : run cfg picks (St.init cfg body trace) = .ok (s, true))
    (h' : run cfg' picks' (St.init cfg' body trace) = .ok (s', true))
    (t t' : RTree (Rec X T A)) (ht : Denotes s.nodes 0 t) (ht' : Denotes s'.nodes 0 t') :
    t.map Label.ofRec = t'.map Label.ofRec := by
  obtain ⟨u, d1, d2⟩ := C07_loop_computes_exploration cfg ha body trace picks s h
  obtain ⟨u', d1', d2'⟩ := C07_loop_computes_exploration cfg' ha' body trace picks' s' h'
  rw [denotes_det ht d1, denotes_det ht' d1']
  have hd : (cfg'.parallel && decide (cfg'.kind = .sim)) = (cfg.parallel && decide (cfg.kind = .sim)) := by
    rw [hk]
    cases hkk : cfg.kind with
    | ver => simp
    | sim => rw [hp hkk]
  have he : problem cfg' (cfg'.parallel && decide (cfg'.kind = .sim)) =
      problem cfg (cfg.parallel && decide (cfg.kind = .sim)) := by
    rw [hd]; unfold problem; rw [hm, hh, hr, hn, hs, h0]
  rw [he, hn] at d2'
  exact explores_det d2 d2'

/-- Parallel and sequential *simulation* return the same tree up to node ids and assertion hits. -/
theorem C07_parallel_sequential_simulate_partial (cfg cfg' : Cfg X T A) (ha : 0 < cfg.ahead) (ha' : 0 < cfg'.ahead)
    (hm : cfg'.maxHeight = cfg.maxHeight) (hh : cfg'.horizon = cfg.horizon)
    (hr : cfg'.round10 = cfg.round10) (hn : cfg'.roundN = cfg.roundN) (hs : cfg'.step = cfg.step)
    (body : X) (trace : T) (picks picks' : List Nat) (s s' : St X T A)
    (h : run cfg picks (St.init cfg body trace) = .ok (s, true))
    (h' : run cfg' picks' (St.init cfg' body trace) = .ok (s', true))
    (t t' : RTree (Rec X T A)) (ht : Denotes s.nodes 0 t) (ht' : Denotes s'.nodes 0 t') :
    t.map (fun r => (r.height, r.start, r.body, r.trace)) = t'.map (fun r => (r.height, r.start, r.body, r.trace)) := by
  obtain ⟨u, d1, d2⟩ := C07_loop_computes_exploration cfg ha body trace picks s h
  obtain ⟨u', d1', d2'⟩ := C07_loop_computes_exploration cfg' ha' body trace picks' s' h'
  rw [denotes_det ht d1, denotes_det ht' d1']
  have := explores_modHits (P := problem cfg (cfg.parallel && decide (cfg.kind = .sim)))
    (P' := problem cfg' (cfg'.parallel && decide (cfg'.kind = .sim)))
    (by intro h st; simp only [problem, hm, hh, hr]) (by intro w; simp only [problem, hs, hr, hh, and_self])
    (by simp only [problem, hn]) d2 (by rw [← hn]; exact d2')
  have e : ∀ v : RTree (Rec X T A), v.map (fun r => (r.height, r.start, r.body, r.trace)) =
      (v.map Label.ofRec).map (fun l => (l.height, l.start, l.body, l.trace)) := by
    intro v; rw [map_map]; rfl
  rw [e, e]; exact this

/-! ## C08 -/

/-- With a height limit the loop ends, under every schedule, within a number of iterations that does not depend on the
schedule; and no exception is raised. -/
theorem C08_terminates (cfg : Cfg X T A) (ha : 0 < cfg.ahead) (m : Nat) (hm : cfg.maxHeight = some m) (body : X)
    (trace : T) : ∃ N, ∀ picks : List Nat, N ≤ picks.length →
      ∃ s, run cfg picks (St.init cfg body trace) = .ok (s, true) := by
  have hx : ∀ h st, (prob cfg).explored h st → h + 1 < m := fun h st hx => hx.1 m hm
  obtain ⟨t, ht⟩ := explores_exists m hx m 0 (cfg.roundN 0) body trace (by omega)
  refine ⟨measure cfg (St.init cfg body trace) + 1, fun picks hl => ?_⟩
  refine run_terminates ha picks (inv_init cfg body trace) ?_ (by omega)
  intro p hp
  simp [pendOf, St.init] at hp
  subst hp
  exact ⟨_, t, rfl, ht⟩

/-- Without a height limit the loop still ends under every schedule as soon as the set of things to explore is finite. -/
theorem C08_terminates_if_finite (cfg : Cfg X T A) (ha : 0 < cfg.ahead) (body : X) (trace : T)
    (t : RTree (Label X T A))
    (ht : Explores (problem cfg (cfg.parallel && decide (cfg.kind = .sim))) 0 (cfg.roundN 0) body trace t) :
    ∃ N, ∀ picks : List Nat, N ≤ picks.length →
      ∃ s, run cfg picks (St.init cfg body trace) = .ok (s, true) := by
  refine ⟨measure cfg (St.init cfg body trace) + 1, fun picks hl => ?_⟩
  refine run_terminates ha picks (inv_init cfg body trace) ?_ (by omega)
  intro p hp
  simp [pendOf, St.init] at hp
  subst hp
  exact ⟨_, t, rfl, ht⟩

/-- `height` of a node is its depth in the tree; with `max_height = m ≥ 1` no node is deeper than `m - 1`, and nodes at
depth `m - 1` have no children. -/
theorem C08_height_bound (cfg : Cfg X T A) (ha : 0 < cfg.ahead) (m : Nat) (hm : cfg.maxHeight = some m)
    (body : X) (trace : T) (picks : List Nat) (s : St X T A)
    (h : run cfg picks (St.init cfg body trace) = .ok (s, true))
    (t u : RTree (Rec X T A)) (ht : Denotes s.nodes 0 t) (k : Nat) (hb : RTree.Below t u k) :
    u.label.height = k ∧ (1 ≤ m → k ≤ m - 1) ∧ (m ≤ k + 1 → u.kids = []) := by
  obtain ⟨v, d1, d2⟩ := C07_loop_computes_exploration cfg ha body trace picks s h
  rw [← denotes_det ht d1] at d2
  have hb' := below_map Label.ofRec hb
  obtain ⟨st', b', tr', hx⟩ := explores_below hb' d2
  have hlab : u.label.height = k := by
    have := explores_label hx
    cases u
    simpa [RTree.map, RTree.label, Label.ofRec] using this
  refine ⟨hlab, ?_, ?_⟩
  · intro hm1
    have := explores_depth (P := problem cfg (cfg.parallel && decide (cfg.kind = .sim))) m
      (fun h st hx => hx.1 m hm) hb' d2 (by omega)
    omega
  · intro hk
    cases u with
    | node r ts =>
      cases ts with
      | nil => rfl
      | cons a as =>
        exfalso
        rw [Nat.zero_add] at hx
        generalize hg : (RTree.node r (a :: as)).map Label.ofRec = g at hx
        cases hx with
        | leaf _ => simp [RTree.map, RTree.mapL] at hg
        | node hx _ => have := hx.1 m hm; omega

/-- Every node above the limit with time left is expanded, and its children are exactly what the worker returned. -/
theorem C08_expanded (cfg : Cfg X T A) (ha : 0 < cfg.ahead)
    (body : X) (trace : T) (picks : List Nat) (s : St X T A)
    (h : run cfg picks (St.init cfg body trace) = .ok (s, true))
    (t u : RTree (Rec X T A)) (ht : Denotes s.nodes 0 t) (k : Nat) (hb : RTree.Below t u k)
    (hk : ∀ m, cfg.maxHeight = some m → k + 1 < m) (hrem : 0 < cfg.round10 (cfg.horizon - u.label.start)) :
    ∃ tr0 : T, let w : Work X T := ⟨k, u.label.start, u.label.body, tr0⟩
      let res := cfg.step w (cfg.round10 (cfg.horizon - u.label.start))
      u.label.trace = res.trace ∧
      u.kids.map (fun c => (c.label.start, c.label.body)) = res.next.map (fun c => (cfg.roundN c.start, c.body)) := by
  obtain ⟨v, d1, d2⟩ := C07_loop_computes_exploration cfg ha body trace picks s h
  rw [← denotes_det ht d1] at d2
  obtain ⟨st', b', tr', hx⟩ := explores_below (below_map Label.ofRec hb) d2
  rw [Nat.zero_add] at hx
  cases u with
  | node r ts =>
    simp only [RTree.map] at hx
    have hl := explores_start hx
    simp only [RTree.label, Label.ofRec] at hl hrem
    obtain ⟨hl1, hl2⟩ := hl
    generalize hg : RTree.node (Label.ofRec r) (RTree.mapL Label.ofRec ts) = g at hx
    cases hx with
    | leaf hn => exact absurd ⟨hk, by rw [← hl1]; exact hrem⟩ hn
    | node hx hall =>
      rename_i us
      injection hg with e1 e2
      refine ⟨tr', ?_, ?_⟩
      · have := congrArg Label.trace e1
        simp only [Label.ofRec] at this
        simp only [RTree.label, this, hl1, hl2]
        rfl
      · simp only [RTree.kids, RTree.label]
        have := exploresAll_contents hall
        rw [← e2] at this
        rw [hl1, hl2]
        rw [contents_mapL] at this
        exact this

/-! ## Witnesses -/

namespace EngineWitness

/-- A toy worker: node `n` branches into `2n` and `2n+1`, one time unit later, and node 3 hits an assertion. -/
def step (w : Work Nat Nat) (_ : ℚ) : Result Nat Nat (List Nat) :=
  { next := if w.body = 3 then [] else
      [⟨w.start + 1, 2 * w.body, 0⟩, ⟨w.start + 1, 2 * w.body + 1, 0⟩]
    trace := w.body + 100
    hits := if w.body = 3 then [42] else [] }

def cfg (k : Kind) (par : Bool) : Cfg Nat Nat (List Nat) :=
  { kind := k, parallel := par, ahead := 3, maxHeight := some 4, horizon := 3,
    round10 := id, roundN := id, step := step, noHits := [] }

/-- ids, payload, recorded hits and child references in heap order -/
def view (x : Except Err (St Nat Nat (List Nat) × Bool)) : Option (List (Int × Nat × List Nat × List Nat) × Bool) :=
  match x with
  | .ok (s, b) => some (s.nodes.map (fun r => (r.id, r.body, r.hits, r.child)), b)
  | .error _ => none

/-- Hypotheses of C06/C07/C08 are met by a run with 9 nodes, under two different schedules, with different id
assignments. -/
example : 0 < (cfg .ver true).ahead ∧
    (view (run (cfg .ver true) (List.replicate 40 0) (St.init (cfg .ver true) 1 0))).map Prod.snd = some true ∧
    (view (run (cfg .ver true) (List.replicate 40 1) (St.init (cfg .ver true) 1 0))).map Prod.snd = some true ∧
    ((view (run (cfg .ver true) (List.replicate 40 0) (St.init (cfg .ver true) 1 0))).map (fun v => v.1.length)) = some 9 ∧
    ((view (run (cfg .ver true) (List.replicate 40 0) (St.init (cfg .ver true) 1 0))).map (fun v => v.1.map (fun r => r.2.1))) ≠
    ((view (run (cfg .ver true) (List.replicate 40 1) (St.init (cfg .ver true) 1 0))).map (fun v => v.1.map (fun r => r.2.1))) := by
  refine ⟨by decide, by decide +kernel, by decide +kernel, by decide +kernel, by decide +kernel⟩

end EngineWitness

open EngineWitness in
/-- **Violation of C07 for assertion hits.** `Simulator.proc_result` does not copy `assert_hits` back from a remote
worker: the same scenario simulated sequentially records the hit of node 3, simulated in parallel it records none. -/
theorem C07_parallel_simulate_loses_hits_violated :
    ∃ (cfg cfg' : Cfg Nat Nat (List Nat)) (body trace : Nat) (picks : List Nat),
      cfg' = { cfg with parallel := true } ∧ cfg.parallel = false ∧ cfg.kind = .sim ∧
      (∃ s s', run cfg picks (St.init cfg body trace) = .ok (s, true) ∧
        run cfg' picks (St.init cfg' body trace) = .ok (s', true) ∧
        (∃ r ∈ s.nodes, r.hits ≠ []) ∧ (∀ r ∈ s'.nodes, r.hits = [])) := by
  refine ⟨cfg .sim false, cfg .sim true, 1, 0, List.replicate 40 0, rfl, rfl, rfl, ?_⟩
  have h1 : (view (run (cfg .sim false) (List.replicate 40 0) (St.init (cfg .sim false) 1 0))).map
      (fun v => (v.1.any (fun r => decide (r.2.2.1 ≠ [])), v.2)) = some (true, true) := by decide +kernel
  have h2 : (view (run (cfg .sim true) (List.replicate 40 0) (St.init (cfg .sim true) 1 0))).map
      (fun v => (v.1.all (fun r => decide (r.2.2.1 = [])), v.2)) = some (true, true) := by decide +kernel
  revert h1 h2
  cases hr1 : run (cfg .sim false) (List.replicate 40 0) (St.init (cfg .sim false) 1 0) with
  | error e => simp [view]
  | ok p =>
    cases hr2 : run (cfg .sim true) (List.replicate 40 0) (St.init (cfg .sim true) 1 0) with
    | error e => simp [view]
    | ok p' =>
      obtain ⟨s, b⟩ := p
      obtain ⟨s', b'⟩ := p'
      intro h1 h2
      simp [view] at h1 h2
      obtain ⟨⟨r, hr, hne⟩, rfl⟩ := h1
      obtain ⟨hall, rfl⟩ := h2
      exact ⟨s, s', rfl, rfl, ⟨r, hr, hne⟩, hall⟩

/-- Without `max_height` the loop need not end: a controller that switches at its very first sample produces children
with the start time of the parent, and the loop runs forever under every schedule. -/
theorem C08_zeno_without_max_height :
    ∃ cfg : Cfg Nat Nat (List Nat), cfg.maxHeight = none ∧ 0 < cfg.ahead ∧
      ∀ picks : List Nat, ∃ s, run cfg picks (St.init cfg 0 0) = .ok (s, false) := by
  let cfg : Cfg Nat Nat (List Nat) :=
    { kind := .sim, parallel := false, ahead := 1, maxHeight := none, horizon := 1, round10 := id, roundN := id,
      step := fun w _ => { next := [⟨w.start, w.body, w.trace⟩], trace := w.trace, hits := [] }, noHits := [] }
  refine ⟨cfg, rfl, by decide, ?_⟩
  have key : ∀ (picks : List Nat) (s : St Nat Nat (List Nat)) (p : Nat) (l : Nat), s.queue = [(p, l)] →
      s.refs = [] → p + 1 = s.nodes.length →
      (∃ r, s.nodes[p]? = some r ∧ r.id = p ∧ r.start = 0) →
      ∃ s', run cfg picks s = .ok (s', false) := by
    intro picks
    induction picks with
    | nil => intro s p l _ _ _ _; exact ⟨s, rfl⟩
    | cons pick rest ih =>
      intro s p l hq hr hlen hn
      obtain ⟨r, hrp, hid, hst⟩ := hn
      unfold run
      have hlast : s.nodes.getLast? = some r := by
        rw [List.getLast?_eq_getElem?, ← hlen]; simpa using hrp
      have hpos : pos s.nodes.length r.id = some p := by
        rw [hid]; exact pos_cast (by omega)
      have hstep : loopStep cfg pick s = .ok (some
          { nodes := s.nodes.set p { r with child := [s.nodes.length], trace := r.trace, hits := [] } ++
              [⟨(0 : Int) + 1 + r.id, r.height + 1, r.start, r.body, r.trace, [], []⟩]
            queue := [(s.nodes.length, 0)], refs := [] }) := by
        unfold loopStep
        simp only [hq, hrp]
        have h1 : cfg.tooDeep r.height = false := rfl
        have h2 : ¬ cfg.remain r.start ≤ 0 := by rw [hst]; simp [Cfg.remain, cfg]
        simp only [h1, h2, if_false, Bool.false_eq_true]
        have h3 : cfg.parallel = false := rfl
        simp only [h3, if_false, Bool.false_eq_true]
        unfold procResult
        simp only [hpos, hlast, hrp]
        simp [cfg, Cfg.enqueues, Cfg.finalHits, mkChild, stableSort, insertByKey, hr, Rec.work, List.zipIdx]
      rw [hstep]
      apply ih _ s.nodes.length 0 rfl rfl
      · simp
      · refine ⟨⟨(0 : Int) + 1 + r.id, r.height + 1, r.start, r.body, r.trace, [], []⟩, ?_, ?_, hst⟩
        · rw [List.getElem?_append_right (by simp)]; simp
        · dsimp only; rw [hid]; omega
  intro picks
  exact key picks (St.init cfg 0 0) 0 0 rfl rfl rfl ⟨_, rfl, rfl, rfl⟩

end Verif.Props
