import Verif.Proofs.Sim2
import Verif.Proofs.Returned

/-! `simulate_one`, and nodes of trees returned by `simulate`. -/

set_option autoImplicit false

namespace Verif.Sim
open Verif.Spec Verif.Engine

variable {Env V : Type} [DecidableEq V]

/-- All that `simulate_one` guarantees. -/
structure OneSpec (w : World Env V) (n : Work (Body Env V) (Trace V)) (remain : ℚ) (full : Trace V) (f : Found Env V)
    (r : Result (Body Env V) (Trace V) (Option (Dict String (List String)))) : Prop where
  traces : FullTraces w n.body n.start remain n.trace full
  found : ∃ a0 rows0 rest, full = (a0, rows0) :: rest ∧ FoundSpec w n.body full rows0.length f
  hits : r.hits = f.asserts
  cases : (f.asserts ≠ none ∧ r.next = [] ∧
      (if w.unsafeContinue then r.trace = full else CutTraces n.body (List.take f.idx) full r.trace)) ∨
    (f.asserts = none ∧ f.trans = [] ∧ r.next = [] ∧ r.trace = full) ∨
    (f.asserts = none ∧ f.trans ≠ [] ∧ CutTraces n.body (List.take (f.idx + 1)) full r.trace ∧
      List.Forall₂ (ChildSpec n.body full f.idx) (product (f.trans.map Prod.snd)) r.next)

omit [DecidableEq V] in
theorem combo_agents {d : Dict String (List (Trans Env V))}
    (ha : ∀ a ts, (a, ts) ∈ d → ∀ t ∈ ts, t.agent = a) {combo : List (Trans Env V)}
    (hc : combo ∈ product (d.map Prod.snd)) : combo.map Trans.agent = d.map Prod.fst := by
  rw [mem_product] at hc
  induction d generalizing combo with
  | nil => cases hc; rfl
  | cons p d ih =>
    cases hc with
    | cons h1 h2 =>
      simp only [List.map_cons]
      rw [ih (fun a ts hm => ha a ts (by simp [hm])) h2, ha p.1 p.2 (by simp) _ h1]

theorem simulateOne_spec {w : World Env V} {n : Work (Body Env V) (Trace V)} (wf : Body.WF n.body) {remain : ℚ}
    {r : Result (Body Env V) (Trace V) (Option (Dict String (List String)))}
    (h : simulateOne w n remain = .ok r) : ∃ full f, OneSpec w n remain full f r := by
  unfold simulateOne at h
  obtain ⟨full, hfull, h⟩ := (bind_ok_iff ..).1 h
  obtain ⟨f, hf, h⟩ := (bind_ok_iff ..).1 h
  have h1 := fillTraces_spec wf hfull
  have h2 := getTransitionSim_spec wf hf
  refine ⟨full, f, ?_⟩
  have htr : ∀ x, f.asserts = some x → f.trans = [] := by
    intro x hx
    obtain ⟨_, _, _, _, fs⟩ := h2
    rcases fs.cases with ⟨g, _⟩ | ⟨s, _, _, _, g⟩ | ⟨s, _, _, _, g, _⟩
    · rw [g] at hx; cases hx
    · exact g
    · rw [g] at hx; cases hx
  split at h
  · rename_i hc
    simp only [Bool.and_eq_true, Bool.not_eq_true'] at hc
    obtain ⟨cut, hcut, h⟩ := (bind_ok_iff ..).1 h
    cases h
    refine ⟨h1, h2, rfl, Or.inl ⟨?_, rfl, ?_⟩⟩
    · intro hn; rw [hn] at hc; simp at hc
    · rw [hc.1]; exact (mapTraces_spec wf hcut).1
  · rename_i hc
    split at h
    · rename_i ht
      cases h
      refine ⟨h1, h2, rfl, ?_⟩
      cases ha : f.asserts with
      | none => exact Or.inr (Or.inl ⟨rfl, ht, rfl, rfl⟩)
      | some x =>
        have hu : w.unsafeContinue = true := by
          cases hw : w.unsafeContinue
          · rw [hw, ha] at hc; simp at hc
          · rfl
        exact Or.inl ⟨by simp, rfl, by rw [hu]; rfl⟩
    · rename_i ht
      obtain ⟨trunc, htrunc, h⟩ := (bind_ok_iff ..).1 h
      obtain ⟨cut, hcut, h⟩ := (bind_ok_iff ..).1 h
      split at h
      · rename_i ha
        obtain ⟨x, hx⟩ := Option.isSome_iff_exists.1 ha
        exact absurd (htr x hx) ht
      · rename_i ha
        have ha' : f.asserts = none := by simpa using ha
        obtain ⟨kids, hk, h⟩ := (bind_ok_iff ..).1 h
        cases h
        refine ⟨h1, h2, rfl, Or.inr (Or.inr ⟨ha', ht, (mapTraces_spec wf hcut).1, ?_⟩)⟩
        rw [mapM_ok_iff] at hk
        obtain ⟨_, _, _, _, fs⟩ := h2
        obtain ⟨s, sp, _, _, _, hcol⟩ : ∃ s, SampleSpec w n.body full f.idx (guardAgents n.body) s ∧ s.asserts = [] ∧
            s.satisfied ≠ [] ∧ f.asserts = none ∧ collect w n.body s.satisfied = .ok f.trans := by
          rcases fs.cases with ⟨_, g, _⟩ | ⟨s, _, _, _, g⟩ | g
          · exact absurd g ht
          · exact absurd g ht
          · exact g
        obtain ⟨k1, k2, _⟩ := collect_spec hcol
        have hag : ∀ a ts, (a, ts) ∈ f.trans → ∀ t ∈ ts, t.agent = a := fun a ts hm t hts => ((k2 a ts hm).2.2 t hts).2.1
        have : ∀ combo ∈ product (f.trans.map Prod.snd), (combo.map Trans.agent).Nodup := by
          intro combo hc; rw [combo_agents hag hc]; exact k1
        exact forall₂_imp_left hk (fun c hc b hb => mkChildSim_spec wf htrunc (this c hc) hb)

omit [DecidableEq V] in
/-- Snapshots at `idx` only depend on the rows up to `idx`. -/
theorem snapshot_cut {b : Body Env V} {full cut : Trace V} {idx i : Nat} (hi : i < idx)
    (hc : CutTraces b (List.take idx) full cut) (sd : StateDict V) : Snapshot b cut i sd ↔ Snapshot b full i sd := by
  unfold Snapshot
  have : ∀ (l : List (String × Logic Env V)) (sd : StateDict V), (∀ a ∈ l, a ∈ b.agents) →
    (List.Forall₂ (fun (a : String × Logic Env V) (x : String × Row V × List V × List V) =>
      x.1 = a.1 ∧ (∃ rows, Dict.get? cut a.1 = some rows ∧ rows[i]? = some x.2.1) ∧
      Dict.get? b.mode a.1 = some x.2.2.1 ∧ Dict.get? b.static a.1 = some x.2.2.2) l sd ↔
     List.Forall₂ (fun (a : String × Logic Env V) (x : String × Row V × List V × List V) =>
      x.1 = a.1 ∧ (∃ rows, Dict.get? full a.1 = some rows ∧ rows[i]? = some x.2.1) ∧
      Dict.get? b.mode a.1 = some x.2.2.1 ∧ Dict.get? b.static a.1 = some x.2.2.2) l sd) := by
    intro l
    induction l with
    | nil => intro sd _; simp
    | cons a l ih =>
      intro sd hm
      cases sd with
      | nil => simp
      | cons x sd =>
        rw [List.forall₂_cons, List.forall₂_cons, ih sd (fun y hy => hm y (by simp [hy]))]
        obtain ⟨rows, g1, g2⟩ := hc a (hm a (by simp))
        simp only [g1, g2, Option.some.injEq, exists_eq_left', List.getElem?_take, hi, if_true]
  exact this b.agents sd (fun _ h => h)

omit [DecidableEq V] in
theorem sees_cut {w : World Env V} {b : Body Env V} {full cut : Trace V} {idx i : Nat} (hi : i < idx)
    (hc : CutTraces b (List.take idx) full cut) (a : String) (env : Env) :
    Sees w b cut i a env ↔ Sees w b full i a env := by
  unfold Sees
  simp only [snapshot_cut hi hc]

/-- The invariant: agents and static parameters never change. -/
theorem sim_inherits {w : World Env V} {cfg : Cfg (Body Env V) (Trace V) Hits} (hs : cfg.step = simStep w) (b : Bool)
    {body : Body Env V} (wf : Body.WF body) (n : Work (Body Env V) (Trace V))
    (hi : n.body.agents = body.agents ∧ n.body.static = body.static) :
    ∀ c ∈ ((problem cfg b).expand n).next, c.body.agents = body.agents ∧ c.body.static = body.static := by
  intro c hc
  simp only [problem, hs] at hc
  unfold simStep at hc
  have wf' : Body.WF n.body := ⟨by rw [hi.1]; exact wf.names, by rw [hi.1]; exact wf.logics⟩
  cases ho : simulateOne w n (cfg.round10 (cfg.horizon - n.start)) with
  | error e => rw [ho] at hc; simp at hc
  | ok r =>
    rw [ho] at hc
    simp only at hc
    obtain ⟨full, f, sp⟩ := simulateOne_spec wf' ho
    rcases sp.cases with ⟨_, g, _⟩ | ⟨_, _, g, _⟩ | ⟨_, _, _, g⟩
    · rw [g] at hc; simp at hc
    · rw [g] at hc; simp at hc
    · obtain ⟨combo, _, cs⟩ := forall₂_mem_right g hc
      exact ⟨by rw [cs.agents, hi.1], by rw [cs.static, hi.2]⟩

/-- The invariant on inherited traces. -/
theorem sim_inherited {w : World Env V} {cfg : Cfg (Body Env V) (Trace V) Hits} (hs : cfg.step = simStep w) (b : Bool)
    {body : Body Env V} (wf : Body.WF body) (n : Work (Body Env V) (Trace V))
    (hi : n.body.agents = body.agents ∧ n.body.static = body.static) (hin : Inherited w n.height n.body n.trace) :
    ∀ c ∈ ((problem cfg b).expand n).next, Inherited w (n.height + 1) c.body c.trace := by
  intro c hc
  refine ⟨by simp, ?_⟩
  simp only [problem, hs] at hc
  unfold simStep at hc
  have wf' : Body.WF n.body := ⟨by rw [hi.1]; exact wf.names, by rw [hi.1]; exact wf.logics⟩
  cases ho : simulateOne w n (cfg.round10 (cfg.horizon - n.start)) with
  | error e => rw [ho] at hc; simp at hc
  | ok r =>
    rw [ho] at hc
    simp only at hc
    obtain ⟨full, f, sp⟩ := simulateOne_spec wf' ho
    rcases sp.cases with ⟨_, g, _⟩ | ⟨_, _, g, _⟩ | ⟨_, _, _, g⟩
    · rw [g] at hc; simp at hc
    · rw [g] at hc; simp at hc
    · obtain ⟨combo, _, cs⟩ := forall₂_mem_right g hc
      intro a ha rows hrows
      rw [cs.agents] at ha
      by_cases hm : a.1 ∈ combo.map Trans.agent
      · obtain ⟨t, ht, hta⟩ := List.mem_map.1 hm
        have := (cs.moved t ht).2.2
        rw [hta, hrows] at this; cases this
      · obtain ⟨m1, frows, row, m2, m3, m4, m5⟩ := cs.stayed a ha hm
        rw [hrows] at m5; injection m5 with m5
        have hhead : rows.head? = some row := by
          rw [m5, List.head?_eq_getElem?, List.getElem?_drop]; simpa using m3
        have hf := sp.traces a ha
        rw [m1, m4]
        cases hg : Dict.get? n.trace a.1 with
        | some grows =>
          rw [hg] at hf
          dsimp only at hf
          rw [m2] at hf; injection hf with hf
          obtain ⟨m, i, s, rem, k, r', p1, p2, p3, p4⟩ := hin.2 a ha grows hg
          exact ⟨m, i, s, rem, k + f.idx, row, p1, by rw [m5, hf, p2, List.drop_drop], hhead, rfl⟩
        | none =>
          rw [hg] at hf
          dsimp only at hf
          obtain ⟨m, i, p1, p2, p3⟩ := hf
          rw [m2] at p3; injection p3 with p3
          exact ⟨m, i, _, _, f.idx, row, p1, by rw [m5, p3], hhead, rfl⟩

/-- The worker call behind an expanded node of a returned tree. -/
theorem returned_node {w : World Env V} {cfg : Cfg (Body Env V) (Trace V) Hits} (hs : cfg.step = simStep w)
    {body : Body Env V} (wf : Body.WF body) {t : RTree (Label (Body Env V) (Trace V) Hits)}
    (hr : Returned cfg body [] t) {u : RTree (Label (Body Env V) (Trace V) Hits)} {k : Nat} (hb : RTree.Below t u k) :
    u.label.body.agents = body.agents ∧ u.label.body.static = body.static ∧ Body.WF u.label.body ∧ ∃ given : Trace V,
    Inherited w k u.label.body given ∧
    ((¬ (problem cfg false).explored k u.label.start ∧ u.kids = [] ∧ u.label.trace = given) ∨
     ((problem cfg false).explored k u.label.start ∧
       ∃ res, res = simStep w ⟨k, u.label.start, u.label.body, given⟩ (cfg.round10 (cfg.horizon - u.label.start)) ∧
        u.label.trace = res.trace ∧ (cfg.parallel = false → u.label.hits = res.hits) ∧
        List.Forall₂ (fun (c : Child (Body Env V) (Trace V)) v => v.label.start = cfg.roundN c.start ∧
          v.label.body = c.body ∧
          ((¬ (problem cfg false).explored (k + 1) v.label.start ∧ v.label.trace = c.trace) ∨
           v.label.trace = (simStep w ⟨k + 1, v.label.start, v.label.body, c.trace⟩
              (cfg.round10 (cfg.horizon - v.label.start))).trace)) res.next u.kids)) := by
  have hx := returned_explores hr
  obtain ⟨st', b', tr', h1, h2⟩ := explores_below_inv
    (I := fun n : Work (Body Env V) (Trace V) => (n.body.agents = body.agents ∧ n.body.static = body.static) ∧
      Inherited w n.height n.body n.trace)
    (fun n _ hi c hc => ⟨sim_inherits hs _ wf n hi.1 c hc, by
      exact sim_inherited hs _ wf n hi.1 hi.2 c hc⟩) hb hx
    ⟨⟨rfl, rfl⟩, fun _ => rfl, fun a _ rows hr => by cases hr⟩
  rw [Nat.zero_add] at h1 h2
  obtain ⟨-, e2, e3, h3⟩ := explores_node h1
  subst e2; subst e3
  refine ⟨h2.1.1, h2.1.2, ⟨by rw [h2.1.1]; exact wf.names, by rw [h2.1.1]; exact wf.logics⟩, tr', h2.2, ?_⟩
  rcases h3 with ⟨g1, g2, g3, _⟩ | ⟨g1, g2, g3, g4⟩
  · exact Or.inl ⟨g1, g2, g3⟩
  · refine Or.inr ⟨g1, _, rfl, ?_, ?_, ?_⟩
    · rw [g2]; simp only [problem, hs]
    · intro hp; rw [g3]; simp only [problem, hs, hp, Bool.false_and, Bool.false_eq_true, if_false]
    · have : ((problem cfg (cfg.parallel && decide (cfg.kind = .sim))).expand ⟨k, u.label.start, u.label.body, tr'⟩).next =
          (simStep w ⟨k, u.label.start, u.label.body, tr'⟩ (cfg.round10 (cfg.horizon - u.label.start))).next := by
        simp only [problem, hs]
      rw [this] at g4
      refine g4.imp ?_
      intro c v hv
      obtain ⟨-, v2, v3, v4⟩ := explores_node hv
      refine ⟨v2, v3, ?_⟩
      rw [← v2, ← v3] at v4
      rcases v4 with ⟨q1, _, q3, _⟩ | ⟨_, q2, _⟩
      · exact Or.inl ⟨q1, q3⟩
      · right; rw [q2]; simp only [problem, hs]

end Verif.Sim
