import Verif.Proofs.Sim1
import Verif.Proofs.TrackMode

/-! `get_transition_simulate` and `simulate_one` against the specification. -/

set_option autoImplicit false

namespace Verif.Sim
open Verif.Spec

variable {Env V : Type}

theorem stateDict_ok_iff (b : Body Env V) (tr : Trace V) (i : Nat) (sd : StateDict V) :
    stateDict b tr i = .ok sd ↔ Snapshot b tr i sd := by
  unfold stateDict Snapshot
  rw [mapM_ok_iff]
  have key : ∀ (a : String × Logic Env V) (x : String × Row V × List V × List V),
      (match Dict.get? tr a.1, Dict.get? b.mode a.1, Dict.get? b.static a.1 with
        | some rows, some m, some s => match rows[i]? with
          | some r => (Except.ok (a.1, r, m, s) : Except Err _)
          | none => .error .indexError
        | _, _, _ => .error .keyError) = .ok x ↔
      x.1 = a.1 ∧ (∃ rows, Dict.get? tr a.1 = some rows ∧ rows[i]? = some x.2.1) ∧
        Dict.get? b.mode a.1 = some x.2.2.1 ∧ Dict.get? b.static a.1 = some x.2.2.2 := by
    intro a x
    obtain ⟨x1, x2, x3, x4⟩ := x
    cases h1 : Dict.get? tr a.1 <;> cases h2 : Dict.get? b.mode a.1 <;> cases h3 : Dict.get? b.static a.1 <;>
      simp only [reduceCtorEq, false_and, exists_false, and_false, Option.some.injEq, exists_eq_left']
    rename_i rows m s
    cases h4 : rows[i]? with
    | none => simp
    | some r =>
      simp only [Except.ok.injEq, Prod.mk.injEq, Option.some.injEq]
      tauto
  constructor
  · intro h; exact h.imp (fun a x hx => (key a x).1 hx)
  · intro h; exact h.imp (fun a x hx => (key a x).2 hx)

theorem snapshot_det {b : Body Env V} {tr : Trace V} {i : Nat} {s1 s2 : StateDict V}
    (h1 : Snapshot b tr i s1) (h2 : Snapshot b tr i s2) : s1 = s2 := by
  have a1 := (stateDict_ok_iff b tr i s1).2 h1
  have a2 := (stateDict_ok_iff b tr i s2).2 h2
  rw [a1] at a2; cases a2; rfl

theorem sees_det {w : World Env V} {b : Body Env V} {tr : Trace V} {i : Nat} {a : String} {e1 e2 : Env}
    (h1 : Sees w b tr i a e1) (h2 : Sees w b tr i a e2) : e1 = e2 := by
  obtain ⟨s1, p1, rfl⟩ := h1
  obtain ⟨s2, p2, rfl⟩ := h2
  rw [snapshot_det p1 p2]

theorem mem_guardAgents {b : Body Env V} {a : String} {dl : Logic Env V} :
    (a, dl) ∈ guardAgents b ↔ Controlled b a dl ∧ dl.paths ≠ [] := by
  unfold guardAgents Controlled
  rw [List.mem_filter]
  simp only [Bool.and_eq_true, decide_eq_true_eq, Bool.not_eq_true', List.isEmpty_eq_false_iff]
  tauto

/-- What `checkSample` knows after the agents `pre`. -/
structure SampleSpec (w : World Env V) (b : Body Env V) (tr : Trace V) (i : Nat)
    (pre : List (String × Logic Env V)) (s : Sample Env V) : Prop where
  asserts : ∀ a labels, Dict.get? s.asserts a = some labels ↔
    ∃ dl env, (a, dl) ∈ pre ∧ Sees w b tr i a env ∧ labels = failing dl env ∧ labels ≠ []
  sound : ∀ t ∈ s.satisfied, ∃ dl env rows row mode, (t.agent, dl) ∈ pre ∧ Sees w b tr i t.agent env ∧
    Dict.get? tr t.agent = some rows ∧ rows[i]? = some row ∧ Dict.get? b.mode t.agent = some mode ∧
    failing dl env = [] ∧ Fires dl env row.state mode t.dest t.init
  complete : ∀ a dl env rows row mode dest init, (a, dl) ∈ pre → Sees w b tr i a env →
    Dict.get? tr a = some rows → rows[i]? = some row → Dict.get? b.mode a = some mode → failing dl env = [] →
    Fires dl env row.state mode dest init → ∃ t ∈ s.satisfied, t.agent = a ∧ t.dest = dest ∧ t.init = init
  sees : ∀ a dl, (a, dl) ∈ pre → ∃ env, Sees w b tr i a env
  none : s.satisfied = [] → ∀ a dl env, (a, dl) ∈ pre → Sees w b tr i a env → failing dl env = [] → ¬ Enabled dl env
  some : s.satisfied ≠ [] → ∃ a dl env, (a, dl) ∈ pre ∧ Sees w b tr i a env ∧ Enabled dl env

theorem checkSample_spec {w : World Env V} {b : Body Env V} (wf : Body.WF b) {tr : Trace V} {i : Nat}
    {s : Sample Env V} (h : checkSample w b tr i = .ok s) : SampleSpec w b tr i (guardAgents b) s := by
  have hnames : ((guardAgents b).map Prod.fst).Nodup := by
    unfold guardAgents
    exact (List.Sublist.map _ List.filter_sublist).nodup wf.names
  have huniq : ∀ a dl dl', (a, dl) ∈ guardAgents b → (a, dl') ∈ guardAgents b → dl = dl' := by
    intro a dl dl' h1 h2
    have g1 := Dict.get?_of_mem hnames h1
    have g2 := Dict.get?_of_mem hnames h2
    rw [g1] at g2; injection g2
  have key := foldlM_inv_pre
    (P := fun pre s => (∀ x ∈ pre, x ∈ guardAgents b) → (pre.map Prod.fst).Nodup → SampleSpec w b tr i pre s) h ?_ ?_
  · exact key (fun _ h => h) hnames
  · intro _ _
    exact ⟨by simp, by simp, by simp, by simp, by simp, by simp⟩
  · rintro pre ⟨a, dl⟩ acc acc' hmem ih hstep hsub hnd
    have hsub' : ∀ x ∈ pre, x ∈ guardAgents b := fun x hx => hsub x (by simp [hx])
    rw [List.map_append, List.nodup_append] at hnd
    obtain ⟨hnd1, -, hnd2⟩ := hnd
    have ih := ih hsub' hnd1
    have hfresh : ∀ dl', (a, dl') ∉ pre := by
      intro dl' hx
      exact hnd2 a (List.mem_map_of_mem (f := Prod.fst) hx) a (by simp) rfl
    obtain ⟨sd, hsd, hstep⟩ := (bind_ok_iff ..).1 hstep
    have hsnap := (stateDict_ok_iff b tr i sd).1 hsd
    cases hr : Dict.get? tr a with
    | none => simp only [hr] at hstep; cases hstep
    | some rows =>
      cases hm : Dict.get? b.mode a with
      | none => simp only [hr, hm] at hstep; cases hstep
      | some mode =>
        simp only [hr, hm] at hstep
        cases hrow : rows[i]? with
        | none => simp only [hrow] at hstep; cases hstep
        | some row =>
          simp only [hrow] at hstep
          obtain ⟨⟨as, sat⟩, hck, hstep⟩ := (bind_ok_iff ..).1 hstep
          have hwf : Logic.WF dl := wf.logics (a, dl) (mem_guardAgents.1 hmem).1.1
          obtain ⟨c1, c2, c3, c4, c5⟩ := checkSim_spec hwf hck
          have hsee : Sees w b tr i a (w.sense a sd) := ⟨sd, hsnap, rfl⟩
          have henv : ∀ env, Sees w b tr i a env → env = w.sense a sd := fun env he => sees_det he hsee
          cases as with
          | some labels =>
            simp only at hstep
            cases hstep
            obtain ⟨l1, l2, l3⟩ := c2 labels rfl
            refine ⟨?_, ?_, ?_, ?_, ?_, ?_⟩
            · intro a' labels'
              dsimp only
              rw [Dict.get?_set]
              by_cases haa : a = a'
              · subst haa
                simp only [if_true, Option.some.injEq]
                constructor
                · rintro rfl
                  exact ⟨dl, _, by simp, hsee, l1, l2⟩
                · rintro ⟨dl', env, h1, h2, h3, h4⟩
                  simp only [List.mem_append, List.mem_singleton, hfresh, false_or, Prod.mk.injEq, true_and] at h1
                  subst h1
                  rw [henv env h2] at h3
                  rw [h3, l1]
              · simp only [haa, if_false]
                rw [ih.asserts]
                have : ¬ a' = a := fun e => haa e.symm
                simp [this]
            · intro t ht
              obtain ⟨dl', env, r', ro', m', p1, p2⟩ := ih.sound t ht
              exact ⟨dl', env, r', ro', m', by simp [p1], p2⟩
            · intro a' dl' env' rows' row' mode' dest init h1 h2 h3 h4 h5 h6 h7
              rcases List.mem_append.1 h1 with h1 | h1
              · exact ih.complete a' dl' env' rows' row' mode' dest init h1 h2 h3 h4 h5 h6 h7
              · simp only [List.mem_singleton, Prod.mk.injEq] at h1
                obtain ⟨rfl, rfl⟩ := h1
                rw [henv env' h2, ← l1] at h6
                exact absurd h6 l2
            · intro a' dl' h1
              rcases List.mem_append.1 h1 with h1 | h1
              · exact ih.sees a' dl' h1
              · simp only [List.mem_singleton, Prod.mk.injEq] at h1
                obtain ⟨rfl, rfl⟩ := h1
                exact ⟨_, hsee⟩
            · intro hs a' dl' env' h1 h2 h3
              rcases List.mem_append.1 h1 with h1 | h1
              · exact ih.none hs a' dl' env' h1 h2 h3
              · simp only [List.mem_singleton, Prod.mk.injEq] at h1
                obtain ⟨rfl, rfl⟩ := h1
                rw [henv env' h2, ← l1] at h3
                exact absurd h3 l2
            · intro hs
              obtain ⟨a', dl', env', p1, p2⟩ := ih.some hs
              exact ⟨a', dl', env', by simp [p1], p2⟩
          | none =>
            simp only at hstep
            cases hstep
            have hf : failing dl (w.sense a sd) = [] := c1.1 rfl
            have c5 := c5 hf
            refine ⟨?_, ?_, ?_, ?_, ?_, ?_⟩
            · intro a' labels'
              dsimp only
              rw [ih.asserts]
              constructor
              · rintro ⟨dl', env', h1, h2⟩
                exact ⟨dl', env', by simp [h1], h2⟩
              · rintro ⟨dl', env', h1, h2, h3, h4⟩
                rcases List.mem_append.1 h1 with h1 | h1
                · exact ⟨dl', env', h1, h2, h3, h4⟩
                · simp only [List.mem_singleton, Prod.mk.injEq] at h1
                  obtain ⟨rfl, rfl⟩ := h1
                  rw [henv env' h2, hf] at h3
                  exact absurd h3 h4
            · intro t ht
              rcases List.mem_append.1 ht with ht | ht
              · obtain ⟨dl', env, r', ro', m', p1, p2⟩ := ih.sound t ht
                exact ⟨dl', env, r', ro', m', by simp [p1], p2⟩
              · have := c3 t ht
                refine ⟨dl, _, rows, row, mode, by simp [this], this ▸ hsee, this ▸ hr, hrow, this ▸ hm, hf, ?_⟩
                exact (c5 t.dest t.init).1 ⟨t, ht, rfl, rfl⟩
            · intro a' dl' env' rows' row' mode' dest init h1 h2 h3 h4 h5 h6 h7
              rcases List.mem_append.1 h1 with h1 | h1
              · obtain ⟨t, ht, q⟩ := ih.complete a' dl' env' rows' row' mode' dest init h1 h2 h3 h4 h5 h6 h7
                exact ⟨t, by simp [ht], q⟩
              · simp only [List.mem_singleton, Prod.mk.injEq] at h1
                obtain ⟨rfl, rfl⟩ := h1
                rw [hr] at h3; cases h3
                rw [hrow] at h4; cases h4
                rw [hm] at h5; cases h5
                rw [henv env' h2] at h7
                obtain ⟨t, ht, q1, q2⟩ := (c5 dest init).2 h7
                exact ⟨t, by simp [ht], c3 t ht, q1, q2⟩
            · intro a' dl' h1
              rcases List.mem_append.1 h1 with h1 | h1
              · exact ih.sees a' dl' h1
              · simp only [List.mem_singleton, Prod.mk.injEq] at h1
                obtain ⟨rfl, rfl⟩ := h1
                exact ⟨_, hsee⟩
            · intro hs a' dl' env' h1 h2 h3
              dsimp only at hs
              rw [List.append_eq_nil_iff] at hs
              rcases List.mem_append.1 h1 with h1 | h1
              · exact ih.none hs.1 a' dl' env' h1 h2 h3
              · simp only [List.mem_singleton, Prod.mk.injEq] at h1
                obtain ⟨rfl, rfl⟩ := h1
                rcases c4.1 hs.2 with h | h
                · exact absurd hf h
                · rw [henv env' h2]; exact h
            · intro hs
              dsimp only at hs
              by_cases hsat : sat = []
              · subst hsat
                rw [List.append_nil] at hs
                obtain ⟨a', dl', env', p1, p2⟩ := ih.some hs
                exact ⟨a', dl', env', by simp [p1], p2⟩
              · refine ⟨a, dl, _, by simp, hsee, ?_⟩
                by_contra hn
                exact hsat (c4.2 (Or.inr hn))

theorem mapAllows_iff [DecidableEq V] (w : World Env V) (dl : Logic Env V) (src dest : List V) :
    mapAllows w dl src dest = .ok true ↔ MapPermits w dl src dest := by
  unfold mapAllows MapPermits
  simp only [← getMode_iff, ← getTrack_iff]
  cases h1 : getMode dl src with
  | error e => simp [bind, Except.bind]
  | ok sm =>
    cases h2 : getTrack dl src with
    | error e => simp [bind, Except.bind]
    | ok st =>
      cases h3 : getMode dl dest with
      | error e => simp [bind, Except.bind]
      | ok dm =>
        cases h4 : getTrack dl dest with
        | error e => simp [bind, Except.bind]
        | ok dt =>
          simp only [bind, Except.bind, Except.ok.injEq, Bool.not_eq_true', Bool.and_eq_false_iff, Bool.or_eq_false_iff,
            decide_eq_false_iff_not, ne_eq, not_not, exists_and_left, exists_eq_left']

/-- `collect` before dedup. -/
theorem collect_spec [DecidableEq V] {w : World Env V} {b : Body Env V} {sat : List (Trans Env V)}
    {d : Dict String (List (Trans Env V))} (h : collect w b sat = .ok d) :
    (d.map Prod.fst).Nodup ∧
    (∀ a ts, (a, ts) ∈ d → ts ≠ [] ∧ (ts.map Trans.dest).Nodup ∧ ∀ t ∈ ts, t ∈ sat ∧ t.agent = a ∧
      ∃ dl src, Dict.get? b.agents a = some dl ∧ Dict.get? b.mode a = some src ∧ MapPermits w dl src t.dest) ∧
    (∀ t ∈ sat, ∃ dl src, Dict.get? b.agents t.agent = some dl ∧ Dict.get? b.mode t.agent = some src ∧
      (MapPermits w dl src t.dest → ∃ ts, (t.agent, ts) ∈ d ∧ ∃ t' ∈ ts, t'.dest = t.dest)) := by
  unfold collect at h
  obtain ⟨d0, hd0, hd⟩ := (bind_ok_iff ..).1 h
  cases hd
  have key := foldlM_inv_pre
    (P := fun pre (d : Dict String (List (Trans Env V))) => (∀ t ∈ pre, t ∈ sat) → (d.map Prod.fst).Nodup ∧
      (∀ a ts, (a, ts) ∈ d → ts ≠ [] ∧ ∀ t ∈ ts, t ∈ sat ∧ t.agent = a ∧
        ∃ dl src, Dict.get? b.agents a = some dl ∧ Dict.get? b.mode a = some src ∧ MapPermits w dl src t.dest) ∧
      (∀ t ∈ pre, ∃ dl src, Dict.get? b.agents t.agent = some dl ∧ Dict.get? b.mode t.agent = some src ∧
        (MapPermits w dl src t.dest → ∃ ts, (t.agent, ts) ∈ d ∧ t ∈ ts))) hd0 (by simp) ?_
  · obtain ⟨k1, k2, k3⟩ := key (fun _ h => h)
    refine ⟨by simpa [Function.comp_def] using k1, ?_, ?_⟩
    · intro a ts hts
      obtain ⟨⟨a', ts'⟩, hm, he⟩ := List.mem_map.1 hts
      injection he with e1 e2
      dsimp only at e1 e2
      subst e1; subst e2
      obtain ⟨q1, q2⟩ := k2 a' ts' hm
      obtain ⟨d1, d2, d3⟩ := dedupBy_spec Trans.dest ts'
      exact ⟨dedupBy_ne_nil _ q1, d2, fun t ht => q2 t (d1.subset ht)⟩
    · intro t ht
      obtain ⟨dl, src, g1, g2, g3⟩ := k3 t ht
      refine ⟨dl, src, g1, g2, fun hp => ?_⟩
      obtain ⟨ts, m1, m2⟩ := g3 hp
      refine ⟨dedupBy Trans.dest ts, List.mem_map.2 ⟨(t.agent, ts), m1, rfl⟩, ?_⟩
      exact (dedupBy_spec Trans.dest ts).2.2 t m2
  · rintro pre t d d' ht ih hstep hsub
    obtain ⟨i1, i2, i3⟩ := ih (fun x hx => hsub x (by simp [hx]))
    cases hg : Dict.get? b.agents t.agent with
    | none => simp only [hg] at hstep; cases hstep
    | some dl =>
      cases hm : Dict.get? b.mode t.agent with
      | none => simp only [hg, hm] at hstep; cases hstep
      | some src =>
        simp only [hg, hm] at hstep
        obtain ⟨keep, hk, hstep⟩ := (bind_ok_iff ..).1 hstep
        cases keep with
        | false =>
          simp only [Bool.false_eq_true, if_false] at hstep
          cases hstep
          refine ⟨i1, i2, ?_⟩
          intro x hx
          rcases List.mem_append.1 hx with hx | hx
          · exact i3 x hx
          · simp only [List.mem_singleton] at hx
            subst hx
            refine ⟨dl, src, hg, hm, fun hp => ?_⟩
            rw [(mapAllows_iff w dl src x.dest).2 hp] at hk
            cases hk
        | true =>
          simp only [if_true] at hstep
          cases hstep
          have hp := (mapAllows_iff w dl src t.dest).1 hk
          have hget : ∀ a ts, (a, ts) ∈ Dict.set d t.agent ((Dict.get? d t.agent).getD [] ++ [t]) ↔
              (if t.agent = a then ts = (Dict.get? d t.agent).getD [] ++ [t] else (a, ts) ∈ d) := by
            intro a ts
            have hnd := Dict.nodup_set i1 t.agent ((Dict.get? d t.agent).getD [] ++ [t])
            constructor
            · intro hm'
              have := Dict.get?_of_mem hnd hm'
              rw [Dict.get?_set] at this
              split
              · rename_i e; rw [if_pos e] at this; injection this with this; exact this.symm
              · rename_i e; rw [if_neg e] at this; exact Dict.mem_of_get? this
            · intro hm'
              apply Dict.mem_of_get?
              rw [Dict.get?_set]
              split
              · rename_i e; rw [if_pos e] at hm'; rw [hm']
              · rename_i e; rw [if_neg e] at hm'; exact Dict.get?_of_mem i1 hm'
          refine ⟨Dict.nodup_set i1 _ _, ?_, ?_⟩
          · intro a ts hts
            rw [hget] at hts
            by_cases e : t.agent = a
            · rw [if_pos e] at hts
              subst e; subst hts
              refine ⟨by simp, ?_⟩
              intro x hx
              rcases List.mem_append.1 hx with hx | hx
              · cases hd' : Dict.get? d t.agent with
                | none => rw [hd'] at hx; simp at hx
                | some ts0 =>
                  rw [hd'] at hx
                  exact (i2 _ _ (Dict.mem_of_get? hd')).2 x hx
              · simp only [List.mem_singleton] at hx
                subst hx
                exact ⟨ht, rfl, dl, src, hg, hm, hp⟩
            · rw [if_neg e] at hts
              exact i2 a ts hts
          · intro x hx
            rcases List.mem_append.1 hx with hx | hx
            · obtain ⟨dl', src', g1, g2, g3⟩ := i3 x hx
              refine ⟨dl', src', g1, g2, fun hp' => ?_⟩
              obtain ⟨ts, m1, m2⟩ := g3 hp'
              by_cases e : t.agent = x.agent
              · refine ⟨(Dict.get? d t.agent).getD [] ++ [t], (hget _ _).2 (by rw [if_pos e]), ?_⟩
                rw [e, Dict.get?_of_mem i1 m1]
                simp [m2]
              · exact ⟨ts, (hget _ _).2 (by rw [if_neg e]; exact m1), m2⟩
            · simp only [List.mem_singleton] at hx
              subst hx
              exact ⟨dl, src, hg, hm, fun _ => ⟨_, (hget _ _).2 (by rw [if_pos rfl]), by simp⟩⟩

/-- No checked agent has an enabled guard or a failing assert at sample `i`. -/
def Quiet (w : World Env V) (b : Body Env V) (tr : Trace V) (i : Nat) : Prop :=
  NoGuard w b tr i ∧ NoFailure false w b tr i

theorem quiet_of_sample {w : World Env V} {b : Body Env V} {tr : Trace V} {i : Nat} {s : Sample Env V}
    (h : SampleSpec w b tr i (guardAgents b) s) (h1 : s.asserts = []) (h2 : s.satisfied = []) : Quiet w b tr i := by
  have hf : NoFailure false w b tr i := by
    intro a dl env hc hp hs
    have hm := mem_guardAgents.2 ⟨hc, by simpa using hp⟩
    by_contra hne
    have := (h.asserts a (failing dl env)).2 ⟨dl, env, hm, hs, rfl, hne⟩
    rw [h1] at this; simp at this
  refine ⟨?_, hf⟩
  rintro a dl env hc hs he
  have hp : dl.paths ≠ [] := by
    obtain ⟨p, hp, _⟩ := he; exact List.ne_nil_of_mem hp
  exact h.none h2 a dl env (mem_guardAgents.2 ⟨hc, hp⟩) hs (hf a dl env hc (Or.inr hp) hs) he

/-- Outcome of `get_transition_simulate`. -/
structure FoundSpec [DecidableEq V] (w : World Env V) (b : Body Env V) (tr : Trace V) (n : Nat) (f : Found Env V) :
    Prop where
  lt : f.idx < n
  before : ∀ j, j < f.idx → Quiet w b tr j
  cases : (f.asserts = none ∧ f.trans = [] ∧ Quiet w b tr f.idx ∧ f.idx + 1 = n) ∨
    (∃ s, SampleSpec w b tr f.idx (guardAgents b) s ∧ s.asserts ≠ [] ∧ f.asserts = some s.asserts ∧ f.trans = []) ∨
    (∃ s, SampleSpec w b tr f.idx (guardAgents b) s ∧ s.asserts = [] ∧ s.satisfied ≠ [] ∧ f.asserts = none ∧
      collect w b s.satisfied = .ok f.trans)

theorem scan_spec [DecidableEq V] {w : World Env V} {b : Body Env V} (wf : Body.WF b) {tr : Trace V}
    {left idx : Nat} {f : Found Env V} (h : scan w b tr left idx = .ok f) (hq : ∀ j, j < idx → Quiet w b tr j) :
    FoundSpec w b tr (idx + left) f := by
  induction left generalizing idx with
  | zero =>
    unfold scan at h
    split at h
    · cases h
    · cases h
      exact ⟨by dsimp only; omega, fun j hj => hq j (by dsimp only at hj; omega),
        Or.inl ⟨rfl, rfl, hq _ (by dsimp only; omega), by dsimp only; omega⟩⟩
  | succ left ih =>
    unfold scan at h
    obtain ⟨s, hs, h⟩ := (bind_ok_iff ..).1 h
    have sp := checkSample_spec wf hs
    split at h
    · rename_i ha
      cases h
      exact ⟨by dsimp only; omega, hq, Or.inr (Or.inl ⟨s, sp, ha, rfl, rfl⟩)⟩
    · rename_i ha
      simp only [ne_eq, not_not] at ha
      split at h
      · rename_i he
        have he' : s.satisfied = [] := by simpa using he
        have := ih h (fun j hj => by
          by_cases hji : j = idx
          · subst hji; exact quiet_of_sample sp ha he'
          · exact hq j (by omega))
        rw [show idx + (left + 1) = idx + 1 + left by omega]
        exact this
      · rename_i he
        have he' : s.satisfied ≠ [] := by simpa using he
        obtain ⟨d, hd, h⟩ := (bind_ok_iff ..).1 h
        cases h
        exact ⟨by dsimp only; omega, hq, Or.inr (Or.inr ⟨s, sp, ha, he', rfl, hd⟩)⟩

theorem getTransitionSim_spec [DecidableEq V] {w : World Env V} {b : Body Env V} (wf : Body.WF b) {tr : Trace V}
    {f : Found Env V} (h : getTransitionSim w b tr = .ok f) :
    ∃ a0 rows0 rest, tr = (a0, rows0) :: rest ∧ FoundSpec w b tr rows0.length f := by
  unfold getTransitionSim at h
  cases tr with
  | nil => cases h
  | cons p rest =>
    obtain ⟨a0, rows0⟩ := p
    have := scan_spec wf h (by intro j hj; omega)
    rw [Nat.zero_add] at this
    exact ⟨a0, rows0, rest, rfl, this⟩

theorem fillTraces_spec {w : World Env V} {b : Body Env V} (wf : Body.WF b) {start remain : ℚ} {given full : Trace V}
    (h : fillTraces w b start remain given = .ok full) : FullTraces w b start remain given full := by
  unfold fillTraces at h
  have key := foldlM_inv_pre
    (P := fun pre (tr : Trace V) => (pre.map Prod.fst).Nodup → (∀ k, k ∉ pre.map Prod.fst → Dict.get? tr k = Dict.get? given k) ∧
      ∀ a ∈ pre, match Dict.get? given a.1 with
        | some rows => Dict.get? tr a.1 = some rows
        | none => ∃ m i, Dict.get? b.mode a.1 = some m ∧ Dict.get? b.init a.1 = some i ∧
            Dict.get? tr a.1 = some ((w.sim a.1 m i remain).map (fun r => ⟨r.time + start, r.state⟩))) h (by simp) ?_
  · exact (key wf.names).2
  · rintro pre ⟨a, dl⟩ tr tr' hmem ih hstep hnd
    rw [List.map_append, List.nodup_append] at hnd
    obtain ⟨hnd1, -, hnd2⟩ := hnd
    have hfresh : a ∉ pre.map Prod.fst := fun hx => hnd2 a hx a (by simp) rfl
    obtain ⟨i1, i2⟩ := ih hnd1
    have hold := i1 a hfresh
    dsimp only at hstep
    by_cases hm : Dict.mem tr a
    · rw [if_pos hm] at hstep
      cases hstep
      refine ⟨fun k hk => i1 k (by simp at hk ⊢; tauto), ?_⟩
      intro x hx
      rcases List.mem_append.1 hx with hx | hx
      · exact i2 x hx
      · simp only [List.mem_singleton] at hx
        subst hx
        have hm' := (Dict.mem_iff tr a).1 hm
        rw [hold] at hm'
        obtain ⟨rows, hr⟩ := Option.isSome_iff_exists.1 hm'
        simp only [hr]
        rw [hold, hr]
    · rw [if_neg hm] at hstep
      have hm' : Dict.get? given a = none := by
        rw [← hold]
        cases hg : Dict.get? tr a with
        | none => rfl
        | some r => exact absurd ((Dict.mem_iff tr a).2 (by rw [hg]; rfl)) hm
      cases hmo : Dict.get? b.mode a with
      | none => simp only [hmo] at hstep; cases hstep
      | some m =>
        cases hin : Dict.get? b.init a with
        | none => simp only [hmo, hin] at hstep; cases hstep
        | some i =>
          simp only [hmo, hin] at hstep
          cases hstep
          refine ⟨?_, ?_⟩
          · intro k hk
            rw [Dict.get?_set_ne _ _ _ _ (by rintro rfl; simp at hk)]
            exact i1 k (by simp at hk ⊢; tauto)
          · intro x hx
            rcases List.mem_append.1 hx with hx | hx
            · have hne : a ≠ x.1 := by
                intro e; rw [e] at hfresh; exact hfresh (List.mem_map_of_mem (f := Prod.fst) hx)
              have := i2 x hx
              rw [Dict.get?_set_ne _ _ _ _ hne]
              exact this
            · simp only [List.mem_singleton] at hx
              subst hx
              simp only [hm']
              exact ⟨m, i, hmo, hin, Dict.get?_set_self _ _ _⟩

theorem mapTraces_spec {b : Body Env V} (wf : Body.WF b) {f : List (Row V) → List (Row V)} {full cut : Trace V}
    (h : mapTraces b f full = .ok cut) :
    CutTraces b f full cut ∧ cut.map Prod.fst = b.agents.map Prod.fst := by
  unfold mapTraces at h
  rw [mapM_ok_iff] at h
  have h' : List.Forall₂ (fun (a : String × Logic Env V) (x : String × List (Row V)) =>
      x.1 = a.1 ∧ ∃ rows, Dict.get? full a.1 = some rows ∧ x.2 = f rows) b.agents cut := by
    refine h.imp ?_
    intro a x hx
    cases hg : Dict.get? full a.1 with
    | none => simp only [hg] at hx; cases hx
    | some rows => simp only [hg] at hx; cases hx; exact ⟨rfl, rows, rfl, rfl⟩
  have hk : cut.map Prod.fst = b.agents.map Prod.fst := by
    clear h wf
    generalize b.agents = l at h'
    induction h' with
    | nil => rfl
    | cons h1 _ ih => simp [h1.1, ih]
  refine ⟨?_, hk⟩
  intro a ha
  obtain ⟨x, hx, h1, rows, h2, h3⟩ := forall₂_mem_left h' ha
  refine ⟨rows, h2, ?_⟩
  rw [← h3, ← h1]
  exact Dict.get?_of_mem (by rw [hk]; exact wf.names) hx

theorem foldl_set_spec {α : Type} (g : Trans Env V → α) (l : List (Trans Env V)) (m : Dict String α)
    (hn : (l.map Trans.agent).Nodup) :
    (∀ t ∈ l, Dict.get? (l.foldl (fun m t => Dict.set m t.agent (g t)) m) t.agent = some (g t)) ∧
    (∀ a, a ∉ l.map Trans.agent → Dict.get? (l.foldl (fun m t => Dict.set m t.agent (g t)) m) a = Dict.get? m a) := by
  induction l generalizing m with
  | nil => simp
  | cons t l ih =>
    simp only [List.map_cons, List.nodup_cons] at hn
    obtain ⟨i1, i2⟩ := ih (Dict.set m t.agent (g t)) hn.2
    refine ⟨?_, ?_⟩
    · intro x hx
      rcases List.mem_cons.1 hx with rfl | hx
      · rw [List.foldl_cons, i2 _ hn.1, Dict.get?_set_self]
      · exact i1 x hx
    · intro a ha
      simp only [List.map_cons, List.mem_cons, not_or] at ha
      rw [List.foldl_cons, i2 a ha.2, Dict.get?_set_ne _ _ _ _ (fun e => ha.1 e.symm)]

/-- A child built from a combination of transitions with distinct agents. -/
structure ChildSpec (b : Body Env V) (full : Trace V) (idx : Nat) (combo : List (Trans Env V))
    (c : Engine.Child (Body Env V) (Trace V)) : Prop where
  agents : c.body.agents = b.agents
  static : c.body.static = b.static
  start  : ∃ a rest rows row, b.agents = a :: rest ∧ Dict.get? full a.1 = some rows ∧ rows[idx]? = some row ∧
    c.start = row.time
  moved : ∀ t ∈ combo, Dict.get? c.body.mode t.agent = some t.dest ∧ Dict.get? c.body.init t.agent = some t.init ∧
    Dict.get? c.trace t.agent = none
  stayed : ∀ a ∈ b.agents, a.1 ∉ combo.map Trans.agent →
    Dict.get? c.body.mode a.1 = Dict.get? b.mode a.1 ∧ ∃ rows row, Dict.get? full a.1 = some rows ∧
      rows[idx]? = some row ∧ Dict.get? c.body.init a.1 = some row.state ∧ Dict.get? c.trace a.1 = some (rows.drop idx)

theorem mkChildSim_spec {b : Body Env V} (wf : Body.WF b) {full trunc : Trace V} {idx : Nat}
    (htr : mapTraces b (fun rows => rows.drop idx) full = .ok trunc) {combo : List (Trans Env V)}
    (hn : (combo.map Trans.agent).Nodup) {c : Engine.Child (Body Env V) (Trace V)}
    (h : mkChildSim b trunc combo = .ok c) : ChildSpec b full idx combo c := by
  obtain ⟨t1, t2⟩ := mapTraces_spec wf htr
  have hrow : ∀ a ∈ b.agents, ∀ r l, Dict.get? trunc a.1 = some (r :: l) → ∃ rows, Dict.get? full a.1 = some rows ∧
      rows[idx]? = some r ∧ rows.drop idx = r :: l := by
    intro a ha r l hg
    obtain ⟨rows, g1, g2⟩ := t1 a ha
    rw [hg] at g2
    injection g2 with g2
    refine ⟨rows, g1, ?_, g2.symm⟩
    have := congrArg (fun (x : List (Row V)) => x[0]?) g2.symm
    simpa [List.getElem?_drop] using this
  unfold mkChildSim at h
  obtain ⟨start, hs, h⟩ := (bind_ok_iff ..).1 h
  obtain ⟨⟨trace, init⟩, hf, h⟩ := (bind_ok_iff ..).1 h
  cases h
  have hstart : ∃ a rest rows row, b.agents = a :: rest ∧ Dict.get? full a.1 = some rows ∧ rows[idx]? = some row ∧
      start = row.time := by
    cases htt : trunc with
    | nil => rw [htt] at hs; cases hs
    | cons p rest =>
      obtain ⟨k, rws⟩ := p
      cases rws with
      | nil => rw [htt] at hs; cases hs
      | cons r rws =>
        rw [htt] at hs
        cases hs
        cases hag : b.agents with
        | nil => rw [htt, hag] at t2; simp at t2
        | cons a as =>
          have hk : k = a.1 := by
            rw [htt, hag] at t2; simp at t2; exact t2.1
          have hg : Dict.get? trunc a.1 = some (r :: rws) := by rw [htt, Dict.get?_cons, if_pos hk]
          obtain ⟨rows, g1, g2, _⟩ := hrow a (by simp [hag]) r rws hg
          exact ⟨a, as, rows, r, rfl, g1, g2, rfl⟩
  obtain ⟨m1, m2⟩ := foldl_set_spec (Env := Env) Trans.dest combo b.mode hn
  obtain ⟨n1, n2⟩ := foldl_set_spec (Env := Env) Trans.init combo ([] : Dict String (List V)) hn
  have key := foldlM_inv_pre
    (P := fun pre (acc : Trace V × Dict String (List V)) => (pre.map Prod.fst).Nodup → (∀ x ∈ pre, x ∈ b.agents) →
      (∀ k, (k ∈ combo.map Trans.agent ∨ k ∉ pre.map Prod.fst) →
        Dict.get? acc.2 k = Dict.get? (combo.foldl (fun (i : Dict String (List V)) t => Dict.set i t.agent t.init) []) k ∧
        Dict.get? acc.1 k = none) ∧
      ∀ a ∈ pre, a.1 ∉ combo.map Trans.agent → ∃ rows row, Dict.get? full a.1 = some rows ∧
        rows[idx]? = some row ∧ Dict.get? acc.2 a.1 = some row.state ∧ Dict.get? acc.1 a.1 = some (rows.drop idx))
    hf (by simp) ?_
  · obtain ⟨k1, k2⟩ := key wf.names (fun _ h => h)
    refine ⟨rfl, rfl, hstart, ?_, ?_⟩
    · intro t ht
      have ha : t.agent ∈ combo.map Trans.agent := List.mem_map_of_mem ht
      obtain ⟨q1, q2⟩ := k1 t.agent (Or.inl ha)
      exact ⟨m1 t ht, by dsimp only at q1 ⊢; rw [q1]; exact n1 t ht, q2⟩
    · intro a ha hna
      exact ⟨m2 a.1 hna, k2 a ha hna⟩
  · rintro pre ⟨a, dl⟩ ⟨tr, ini⟩ ⟨tr', ini'⟩ hmem ih hstep hnd hsub
    have hsub' : ∀ x ∈ pre, x ∈ b.agents := fun x hx => hsub x (by simp [hx])
    rw [List.map_append, List.nodup_append] at hnd
    obtain ⟨hnd1, -, hnd2⟩ := hnd
    have hfresh : a ∉ pre.map Prod.fst := fun hx => hnd2 a hx a (by simp) rfl
    obtain ⟨i1, i2⟩ := ih hnd1 hsub'
    obtain ⟨j1, j2⟩ := i1 a (Or.inr hfresh)
    dsimp only at hstep j1 j2 i1 i2
    by_cases hac : a ∈ combo.map Trans.agent
    · have : Dict.mem ini a = true := by
        rw [Dict.mem_iff, j1]
        obtain ⟨t, ht, rfl⟩ := List.mem_map.1 hac
        rw [n1 t ht]; rfl
      rw [if_pos this] at hstep
      cases hstep
      refine ⟨?_, ?_⟩
      · intro k hk
        apply i1
        rcases hk with hk | hk
        · exact Or.inl hk
        · right; simp at hk ⊢; tauto
      · intro x hx hxc
        rcases List.mem_append.1 hx with hx | hx
        · exact i2 x hx hxc
        · simp only [List.mem_singleton] at hx
          subst hx
          exact absurd hac hxc
    · have : ¬ Dict.mem ini a = true := by
        rw [Dict.mem_iff, j1, n2 a hac]; simp
      rw [if_neg this] at hstep
      cases hg : Dict.get? trunc a with
      | none => simp only [hg] at hstep; cases hstep
      | some rws =>
        cases rws with
        | nil => simp only [hg] at hstep; cases hstep
        | cons r rws =>
          simp only [hg] at hstep
          cases hstep
          obtain ⟨rows, g1, g2, g3⟩ := hrow (a, dl) hmem r rws hg
          refine ⟨?_, ?_⟩
          · intro k hk
            have hka : a ≠ k := by
              rintro rfl
              rcases hk with hk | hk
              · exact hac hk
              · simp at hk
            dsimp only
            rw [Dict.get?_set_ne _ _ _ _ hka, Dict.get?_set_ne _ _ _ _ hka]
            apply i1
            rcases hk with hk | hk
            · exact Or.inl hk
            · right; simp at hk ⊢; tauto
          · intro x hx hxc
            rcases List.mem_append.1 hx with hx | hx
            · have hka : a ≠ x.1 := by
                intro e; rw [e] at hfresh; exact hfresh (List.mem_map_of_mem (f := Prod.fst) hx)
              dsimp only
              rw [Dict.get?_set_ne _ _ _ _ hka, Dict.get?_set_ne _ _ _ _ hka]
              exact i2 x hx hxc
            · simp only [List.mem_singleton] at hx
              subst hx
              exact ⟨rows, r, g1, g2, Dict.get?_set_self _ _ _, by dsimp only; rw [Dict.get?_set_self, g3]⟩

end Verif.Sim
