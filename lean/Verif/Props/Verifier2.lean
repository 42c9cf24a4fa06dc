import Verif.Proofs.Verifier3
import Verif.Props.VerifierEx

/-!
Properties C54 and C56: what a node of the reachability tree reports is checked, and its children are justified.
-/

set_option autoImplicit false
set_option linter.unusedSectionVars false

namespace Verif.Props

open Verif.Ver Verif.Ver.Spec Verif.Proofs.Ver Verif.Rect.Spec Verif.Rst.Spec VerEx

section
variable {S G K V D : Type} [Field K] [LinearOrder K] [DecidableEq V]

theorem getElem?_take_some {α : Type} {l : List α} {n i : Nat} {x : α} (h : (l.take n)[i]? = some x) : l[i]? = some x := by
  rw [List.getElem?_take] at h
  split at h
  · exact h
  · cases h

/-- States of cut tubes are states of the tubes. -/
theorem boxes_cut {b : Body S G K V D} (hn : (b.agents.map Prod.fst).Nodup) {full cut : Trace K} {k i : Nat} {sd : StateDict K V}
    (hcut : mapTubes b (fun segs => segs.take k) full = .ok cut) (h : Boxes b cut i sd) : Boxes b full i sd := by
  have hs := (mapTubes_spec hn hcut).1
  unfold Boxes at h ⊢
  have : ∀ a ∈ b.agents, ∃ segs, Dict.get? full a.1 = some segs ∧ Dict.get? cut a.1 = some (segs.take k) := hs
  clear hs hn hcut
  generalize b.agents = l at h this
  induction h with
  | nil => exact .nil
  | cons h1 _ ih =>
    obtain ⟨q1, ⟨segs, q2, q3⟩, q4⟩ := h1
    obtain ⟨segs', e1, e2⟩ := this _ List.mem_cons_self
    rw [e2] at q2
    cases q2
    exact .cons ⟨q1, ⟨segs', e1, getElem?_take_some q3⟩, q4⟩ (ih (fun a ha => this a (List.mem_cons_of_mem _ ha)))

theorem foldl_max_ge (l : List Nat) (m i : Nat) (h : i < l.foldl max m + 1) : i ≤ m ∨ ∃ x ∈ l, i ≤ x := by
  induction l generalizing m with
  | nil => simp only [List.foldl_nil] at h; left; omega
  | cons a l ih =>
    simp only [List.foldl_cons] at h
    rcases ih _ h with h | ⟨x, hx, h⟩
    · rcases le_max_iff.1 h with h | h
      · exact .inl h
      · exact .inr ⟨a, by simp, h⟩
    · exact .inr ⟨x, by simp [hx], h⟩

/-- **C54**, in part. Let the step of a node report no failed assert, and let it have children or tubes in which no guard may be satisfied.
Then in every state of the tubes it reports every assert holds: if its precondition is true, its condition is true. It is assumed that the
answers about conditions are right, and that a precondition that is true somewhere at a step is certainly true at this step.

Missing: nodes whose transitions are all rejected by the map (`C54_rejected_violated`), for which the claim is false. -/
theorem C54_reported_tubes_safe_partial (w : World S K V) (n : Engine.Work (Body S G K V D) (Trace K)) (remain : ℚ)
    (res : Engine.Result (Body S G K V D) (Trace K) (Option (Dict String (List String)))) (wf : Body.WF n.body)
    (hrun : verifyOne w n remain = .ok res) (hsafe : res.hits = none) :
    ∃ full, Tubes n.body (FromInit w n.start remain) n.trace full ∧
      (∃ k, ∀ o ∈ n.body.agents, ∃ segs, Dict.get? full o.1 = some segs ∧
        (Dict.get? res.trace o.1 = some segs ∨ Dict.get? res.trace o.1 = some (segs.take k))) ∧
      ((res.next ≠ [] ∨ ∀ i a p, ¬ HitAt w n.body full i a p ∧ ¬ ContainedAt w n.body full i a p) →
      ∀ (M : Meaning S G K V D),
        (∀ i a dl x sd, Controlled n.body a dl → x ∈ dl.asserts → Boxes n.body full i sd →
          x.cond (w.sense a sd) = .ok (true, true) → ∀ s, Within s sd → M.cond x a s) →
        (∀ i a dl x sd, Controlled n.body a dl → x ∈ dl.asserts → Boxes n.body full i sd →
          (∃ s, Within s sd ∧ M.pre x a s) → x.pre (w.sense a sd) = .ok (true, true)) →
        ∀ i snap a dl x, HasStep res.trace i → InTube n.body res.trace i snap → Controlled n.body a dl → x ∈ dl.asserts →
          M.pre x a snap → M.cond x a snap) := by
  obtain ⟨full, hfill, h⟩ := (bind_ok_iff _ _ _).1 hrun
  refine ⟨full, fillTubes_spec wf.names hfill, ?_⟩
  obtain ⟨found, hfound, h⟩ := (bind_ok_iff _ _ _).1 h
  unfold getTransitions at hfound
  obtain ⟨prep, hprep, hfound⟩ := (bind_ok_iff _ _ _).1 hfound
  obtain ⟨N, hN, hfound⟩ := (bind_ok_iff _ _ _).1 hfound
  obtain ⟨sc, hsc, hfound⟩ := (bind_ok_iff _ _ _).1 hfound
  -- a step that was scanned is safe
  have key : ∀ (M : Meaning S G K V D),
        (∀ i a dl x sd, Controlled n.body a dl → x ∈ dl.asserts → Boxes n.body full i sd →
          x.cond (w.sense a sd) = .ok (true, true) → ∀ s, Within s sd → M.cond x a s) →
        (∀ i a dl x sd, Controlled n.body a dl → x ∈ dl.asserts → Boxes n.body full i sd →
          (∃ s, Within s sd ∧ M.pre x a s) → x.pre (w.sense a sd) = .ok (true, true)) →
        ∀ i s snap a dl x, checkSample w n.body prep full i = .ok s → s.asserts = [] → InTube n.body full i snap →
          Controlled n.body a dl → x ∈ dl.asserts → M.pre x a snap → M.cond x a snap := by
    intro M h1 h2 i s snap a dl x hs has ⟨sd, hsd, hin⟩ hc hx hp
    have hsp := checkSample_spec wf.names hprep hs
    have hpre := h2 i a dl x sd hc hx hsd ⟨snap, hin, hp⟩
    obtain ⟨q, hq⟩ := (hsp.evaluated a dl x sd (mem_controlled.2 hc) hx hsd).2 hpre
    by_cases e : q = (true, true)
    · rw [e] at hq
      exact h1 i a dl x sd hc hx hsd hq snap hin
    · obtain ⟨ls, hls, _⟩ := (hsp.fails a x.label).2 ⟨dl, x, mem_controlled.2 hc, rfl, hx, dl, sd, hc, hx, hsd, hpre, q, hq, e⟩
      rw [has] at hls
      cases hls
  -- the tubes of all agents exist
  have hall : ∀ o ∈ n.body.agents, ∃ segs, Dict.get? full o.1 = some segs := by
    intro o ho
    have ht := fillTubes_spec wf.names hfill
    cases hg : Dict.get? n.trace o.1 with
    | some segs => exact ⟨segs, ht.1 _ _ hg⟩
    | none =>
      obtain ⟨_, _, t, _, _, _, e⟩ := ht.2 o ho hg
      exact ⟨t, e⟩
  cases sc with
  | asserts d idx =>
    cases hfound
    dsimp only at h
    split at h
    · cases h
    · obtain ⟨cut, _, rfl⟩ := (map_ok_iff _ _ _).1 h
      cases hsafe
  | hits l =>
    dsimp only at hfound
    obtain ⟨evs, hevs, hfound⟩ := (bind_ok_iff _ _ _).1 hfound
    obtain ⟨ts, hts, rfl⟩ := (map_ok_iff _ _ _).1 hfound
    obtain ⟨l', N', hl', hN1, hN2, hN3, hN4⟩ := scan_prefix _ _ _ _ hsc
    rw [List.nil_append] at hl'
    subst hl'
    cases ts with
    | nil =>
      dsimp only at h
      cases h
      refine ⟨⟨0, fun o ho => ?_⟩, ?_⟩
      · obtain ⟨segs, hs⟩ := hall o ho
        exact ⟨segs, hs, .inl hs⟩
      · rintro (hne | hno)
        · exact absurd rfl hne
        · intro M hM1 hM2 i snap a dl x hstep htube hc hx hp
          have hi := (traceLength_spec _ _ hN i).2 hstep
          have hlnil : l = [] := by
            by_contra hne
            obtain ⟨y, hy⟩ := List.exists_mem_of_ne_nil _ hne
            obtain ⟨t, ht, _, ht2⟩ := scan_hits _ _ _ _ hsc
            rw [List.nil_append] at ht
            subst ht
            obtain ⟨_, _, y3, y4, y5⟩ := ht2 y hy
            obtain ⟨a', dl', p', _, hh⟩ := ((checkSample_spec wf.names hprep y3).noHit y4).1 y5
            exact (hno _ _ _).1 hh
          have hNN : N' = 0 + N := by
            rcases hN4 with e | ⟨s, e1, e2, e3⟩
            · exact e
            · exfalso
              rcases e3 with e3 | e3
              · obtain ⟨s', q1, q2⟩ := hN2 (N' - 1) (Nat.zero_le _) (by omega)
                rw [e2] at q1
                cases q1
                obtain ⟨a', dl', p', _, hh⟩ := ((checkSample_spec wf.names hprep e2).contained q2).1 e3
                exact (hno _ _ _).2 hh
              · exact e3 hlnil
          obtain ⟨s, hs, has⟩ := hN2 i (Nat.zero_le _) (by omega)
          exact key M hM1 hM2 i s snap a dl x hs has htube hc hx hp
    | cons u us =>
      dsimp only at h
      obtain ⟨cs, hcs, h⟩ := (bind_ok_iff _ _ _).1 h
      obtain ⟨cut, hcut, rfl⟩ := (map_ok_iff _ _ _).1 h
      have hspec := (mapTubes_spec wf.names hcut).1
      refine ⟨⟨(cs.map Prod.snd).foldl max 0 + 1, fun o ho => ?_⟩, ?_⟩
      · obtain ⟨segs, g1, g2⟩ := hspec o ho
        exact ⟨segs, g1, .inr g2⟩
      · intro _ M hM1 hM2 i snap a dl x hstep htube hc hx hp
        obtain ⟨sd, hsd, hin⟩ := htube
        have hlt : i < (cs.map Prod.snd).foldl max 0 + 1 := by
          obtain ⟨segs, g1, g2⟩ := hspec (a, dl) hc.1
          have hmem := Dict.mem_of_get? g2
          have := hstep _ hmem
          simp only [List.length_take] at this
          omega
        have hidx : ∃ y ∈ l, i ≤ y.2 := by
          rw [mapM_ok_iff] at hcs
          have hstop : ∀ c ∈ cs, ∃ y ∈ l, y.2 = c.2 := by
            intro c hcm
            obtain ⟨t, ht, hch⟩ := forall₂_mem_right hcs hcm
            have htg := ((mem_permitted _ _ hts t).1 ht).1
            obtain ⟨e, rest, k, hfil, _, hidxs, _⟩ := grouped_sound _ _ htg
            unfold childOf at hch
            cases h1 : t.idxs.head? with
            | none => rw [h1] at hch; cases hch
            | some j =>
              cases h2 : t.idxs.getLast? with
              | none => rw [h1, h2] at hch; cases hch
              | some stop =>
                rw [h1, h2] at hch
                have hc2 : c.2 = stop := by
                  cases hd : t.dest with
                  | none => rw [hd] at hch; cases hch; rfl
                  | some d =>
                    rw [hd] at hch
                    obtain ⟨_, _, rfl⟩ := (map_ok_iff _ _ _).1 hch
                    rfl
                have hm := List.mem_of_getLast? h2
                rw [hidxs] at hm
                obtain ⟨e', he', rfl⟩ := List.mem_map.1 hm
                rw [hfil] at he'
                obtain ⟨s, _, _, _, _, _, q1, _⟩ := events_sound hevs e' (List.mem_filter.1 he').1
                exact ⟨_, q1, hc2.symm⟩
          rcases foldl_max_ge _ _ _ hlt with hi | ⟨z, hz, hi⟩
          · have : cs ≠ [] := by
              rintro rfl
              cases hcs
            obtain ⟨c, hcm⟩ := List.exists_mem_of_ne_nil _ this
            obtain ⟨y, hy, _⟩ := hstop c hcm
            exact ⟨y, hy, by omega⟩
          · obtain ⟨c, hcm, rfl⟩ := List.mem_map.1 hz
            obtain ⟨y, hy, e⟩ := hstop c hcm
            exact ⟨y, hy, by omega⟩
        obtain ⟨y, hy, hiy⟩ := hidx
        obtain ⟨s, hs, has⟩ := hN2 i (Nat.zero_le _) (by have := hN3 y hy; omega)
        exact key M hM1 hM2 i s snap a dl x hs has ⟨sd, boxes_cut wf.names hcut hsd, hin⟩ hc hx hp

/-- A coordinate that no reset writes keeps its range. -/
theorem applyReset_unchanged (sh : K → Rst.Text) (rd : Rst.Text → Option K) (contVars discVars : List String) (mode : List V)
    (rect : Rect.Box K) (items : List (Rst.Item K V D)) (dests : List (List V)) (rect' : Rect.Box K)
    (hrun : Rst.applyReset sh rd contVars discVars mode rect items = .ok (dests, rect')) (k : Nat) (v : String) (hk : contVars[k]? = some v)
    (hv : ∀ it ∈ items, it.var ≠ v) : rect'.1[k]? = rect.1[k]? ∧ rect'.2[k]? = rect.2[k]? := by
  unfold Rst.applyReset at hrun
  obtain ⟨r, hr1, hr2⟩ := (map_ok_iff _ _ _).1 hrun
  simp only [Prod.mk.injEq] at hr2
  obtain ⟨-, rfl⟩ := hr2
  refine foldlM_inv_pre (fun _ (r : List (List V) × Rect.Box K) => r.2.1[k]? = rect.1[k]? ∧ r.2.2[k]? = rect.2[k]?) hr1 ⟨rfl, rfl⟩ ?_
  intro pre it acc acc' hit hinv hstep
  unfold Rst.applyOne at hstep
  by_cases hm : Sim.hasMode it.var = true
  · rw [if_pos hm] at hstep
    cases hi : Sim.indexOf? discVars it.var with
    | none => rw [hi] at hstep; cases hstep
    | some i =>
      rw [hi] at hstep
      dsimp only at hstep
      cases hs : acc.1[i]? with
      | none => rw [hs] at hstep; cases hstep
      | some old => rw [hs] at hstep; cases hstep; exact hinv
  · rw [if_neg hm] at hstep
    cases hi : Sim.indexOf? contVars it.var with
    | none => rw [hi] at hstep; cases hstep
    | some i =>
      rw [hi] at hstep
      dsimp only at hstep
      have hne : i ≠ k := by
        rintro rfl
        have := Verif.Proofs.Rst.indexOf_some hi
        rw [hk] at this
        exact hv it hit (Option.some.inj this).symm
      cases hval : it.val with
      | arith e =>
        rw [hval] at hstep
        dsimp only at hstep
        obtain ⟨q, _, hstep⟩ := (bind_ok_iff _ _ _).1 hstep
        split at hstep
        · injection hstep with hstep
          subst hstep
          simp only [List.getElem?_set_ne hne]
          exact hinv
        · cases hstep
      | const c => rw [hval] at hstep; cases hstep
      | member b c => rw [hval] at hstep; cases hstep
      | mapCall f => rw [hval] at hstep; cases hstep

/-- **C56**. Every child is justified. It is a switch of one controlled agent `a` to a mode that the map permits. Every initial rectangle of `a`
comes from a step of the tube at which guards of `a` may be satisfied: one path is chosen for every variable with such a guard; the modes are
those that the chosen paths assign, unchanged otherwise; the range of a variable without chosen path is the one of the tube. The tubes of the
other agents continue from the first of these steps. -/
theorem C56_children_justified (w : World S K V) (n : Engine.Work (Body S G K V D) (Trace K)) (remain : ℚ)
    (res : Engine.Result (Body S G K V D) (Trace K) (Option (Dict String (List String)))) (wf : Body.WF n.body)
    (hrun : verifyOne w n remain = .ok res) :
    ∃ full, Tubes n.body (FromInit w n.start remain) n.trace full ∧
      ∀ c ∈ res.next, ∃ a dl src dest segs rs start, Controlled n.body a dl ∧ Dict.get? n.body.mode a = some src ∧ MapPermits w dl src dest ∧
        Dict.get? full a = some segs ∧
        c.body.agents = n.body.agents ∧ c.body.static = n.body.static ∧
        (∀ o, Dict.get? c.body.mode o = if o = a then some dest else Dict.get? n.body.mode o) ∧
        Dict.get? c.body.init a = some rs ∧ rs ≠ [] ∧ Dict.get? c.trace a = none ∧
        (∀ r ∈ rs, ∃ i seg sel, start ≤ i ∧ segs[i]? = some seg ∧ Selects w n.body full i a dl sel ∧
          ((∀ p ∈ dl.paths, p.var ∈ dl.disc → (∀ e, p.val ≠ .arith e) ∧ ∀ v, p.val ≠ .member false v) → src.length = dl.disc.length →
            dest.length = src.length ∧ ∀ (k : Nat) (v : String) (y : V), dl.disc[k]? = some v → dest[k]? = some y → match sel v with
              | some p => ∃ sd0, Boxes n.body full 0 sd0 ∧ NewMode (p.disc (w.sense a sd0)) p.val y
              | none => src[k]? = some y) ∧
          ∀ (k : Nat) (v : String), dl.cont[k]? = some v → sel v = none → r.1[k]? = seg.box.1[k]? ∧ r.2[k]? = seg.box.2[k]?) ∧
        (∃ sel, Selects w n.body full start a dl sel) ∧
        ∀ o ∈ n.body.agents, o.1 ≠ a → ∃ segs s rest, Dict.get? full o.1 = some segs ∧ segs.drop start = s :: rest ∧
          Dict.get? c.trace o.1 = some (segs.drop start) ∧ Dict.get? c.body.init o.1 = some [s.box] := by
  obtain ⟨full, hfill, h⟩ := (bind_ok_iff _ _ _).1 hrun
  refine ⟨full, fillTubes_spec wf.names hfill, ?_⟩
  obtain ⟨found, hfound, h⟩ := (bind_ok_iff _ _ _).1 h
  unfold getTransitions at hfound
  obtain ⟨prep, hprep, hfound⟩ := (bind_ok_iff _ _ _).1 hfound
  obtain ⟨N, hN, hfound⟩ := (bind_ok_iff _ _ _).1 hfound
  obtain ⟨sc, hsc, hfound⟩ := (bind_ok_iff _ _ _).1 hfound
  intro c hc
  cases sc with
  | asserts d idx =>
    cases hfound
    dsimp only at h
    split at h
    · cases h
    · obtain ⟨cut, _, rfl⟩ := (map_ok_iff _ _ _).1 h
      cases hc
  | hits l =>
    dsimp only at hfound
    obtain ⟨evs, hevs, hfound⟩ := (bind_ok_iff _ _ _).1 hfound
    obtain ⟨ts, hts, rfl⟩ := (map_ok_iff _ _ _).1 hfound
    obtain ⟨l', hl', hsorted, hl⟩ := scan_hits _ _ _ _ hsc
    rw [List.nil_append] at hl'
    subst hl'
    obtain ⟨hev1, -⟩ := events_sorted hevs hsorted
    cases ts with
    | nil => dsimp only at h; cases h; cases hc
    | cons u us =>
      dsimp only at h
      obtain ⟨cs, hcs, h⟩ := (bind_ok_iff _ _ _).1 h
      obtain ⟨cut, _, rfl⟩ := (map_ok_iff _ _ _).1 h
      rw [mapM_ok_iff] at hcs
      obtain ⟨x, hx, hcx⟩ := List.mem_flatten.1 hc
      obtain ⟨cc, hcc, rfl⟩ := List.mem_map.1 hx
      obtain ⟨t, ht, hch⟩ := forall₂_mem_right hcs hcc
      obtain ⟨htg, dl, src, hdl, hsrc, hmap⟩ := (mem_permitted _ _ hts t).1 ht
      obtain ⟨e, rest, k, hfil, hinits, hidxs, _⟩ := grouped_sound _ _ htg
      unfold childOf at hch
      rw [hidxs] at hch
      simp only [List.map_cons, List.head?_cons] at hch
      cases hlast : (e.idx :: rest.map Event.idx).getLast? with
      | none => rw [hlast] at hch; cases hch
      | some stop =>
      rw [hlast] at hch
      cases hdest : t.dest with
      | none => rw [hdest] at hch; cases hch; cases hcx
      | some dest =>
      rw [hdest] at hch
      obtain ⟨c', hc', rfl⟩ := (map_ok_iff _ _ _).1 hch
      simp only [List.mem_singleton] at hcx
      subst hcx
      rw [hdest] at hmap
      have hper := (mapAllows_iff w dl src dest).1 hmap
      -- what every event of the group knows
      have hev : ∀ y ∈ e :: rest, y ∈ evs ∧ y.agent = t.agent ∧ y.dest = some dest := by
        intro y hy
        rw [hfil, List.mem_filter] at hy
        simp only [Bool.and_eq_true, decide_eq_true_eq] at hy
        exact ⟨hy.1, hy.2.1, by rw [hy.2.2.2, hdest]⟩
      have hsel : ∀ y ∈ e :: rest, ∃ dl' sel, Controlled n.body t.agent dl' ∧ Selects w n.body full y.idx t.agent dl' sel ∧
          Combo w n.body full y.idx t.agent sel y.combo := by
        intro y hy
        obtain ⟨y1, y2, y3⟩ := hev y hy
        obtain ⟨s, _, _, _, _, _, q1, q2, _⟩ := events_sound hevs y y1
        obtain ⟨_, _, q3, _⟩ := hl _ q1
        rw [y2] at q2
        exact checkSample_sound wf.names hprep q3 _ _ q2
      obtain ⟨dl', sel0, hctl, hsel0, _⟩ := hsel e (by simp)
      have hdl' : dl' = dl := by
        have := Dict.get?_of_mem wf.names hctl.1
        rw [hdl] at this
        exact (Option.some.inj this).symm
      subst hdl'
      have hlwf := wf.logics _ hctl.1
      have hag : t.agent ∈ n.body.agents.map Prod.fst := List.mem_map.2 ⟨_, hctl.1, rfl⟩
      obtain ⟨k1, k2, k3, k4, k5, k6⟩ := mkChild_spec wf.names hc' hag
      obtain ⟨_, _, segs, _, _, _, _, _, _, hsegs, _⟩ := events_sound hevs e (hev e (by simp)).1
      rw [(hev e (by simp)).2.1] at hsegs
      refine ⟨t.agent, dl', src, dest, segs, t.inits, e.idx, hctl, hsrc, hper, hsegs, k1, k2, fun o => ?_, k4, by rw [hinits]; simp, k5, ?_,
        ⟨sel0, hsel0⟩, k6⟩
      · rw [k3, Dict.get?_set]
        by_cases eo : t.agent = o
        · rw [if_pos eo, if_pos eo.symm]
        · rw [if_neg eo, if_neg (Ne.symm eo)]
      · intro r hr
        rw [hinits] at hr
        obtain ⟨y, hy, rfl⟩ := List.mem_map.1 hr
        obtain ⟨y1, y2, y3⟩ := hev y hy
        obtain ⟨dl2, sel, hctl2, s1, s2⟩ := hsel y hy
        have hdl2 : dl2 = dl' := by
          have := Dict.get?_of_mem wf.names hctl2.1
          rw [hdl] at this
          exact (Option.some.inj this).symm
        subst hdl2
        obtain ⟨s, dl3, segs3, m3, seg, dests, _, _, q3, q4, q5, q6, q7, q8⟩ := events_sound hevs y y1
        rw [y2] at q3 q4 q5
        rw [hdl] at q3; cases q3
        rw [hsegs] at q4; cases q4
        rw [hsrc] at q5; cases q5
        obtain ⟨c1, c2, c3⟩ := s2
        have hitem : ∀ it ∈ y.combo.map Hit.item, ∃ h ∈ y.combo, it = h.item ∧ it.var = h.path.var ∧ it.val = h.path.val ∧
            sel it.var = some h.path ∧ ∃ sd0, Boxes n.body full 0 sd0 ∧ it.disc = h.path.disc (w.sense t.agent sd0) := by
          intro it hit
          obtain ⟨h, hh, rfl⟩ := List.mem_map.1 hit
          obtain ⟨z1, sd0, _, _, _, z2, _, _, _, z3⟩ := c2 h hh
          exact ⟨h, hh, rfl, by rw [z3], by rw [z3], by rw [z3]; exact z1, sd0, z2, by rw [z3]⟩
        have hvars : ((y.combo.map Hit.item).map Rst.Item.var).Nodup := by
          have : (y.combo.map Hit.item).map Rst.Item.var = y.combo.map (fun h => h.path.var) := by
            rw [List.map_map]
            apply List.map_congr_left
            intro h hh
            obtain ⟨_, sd0, _, _, _, _, _, _, _, z3⟩ := c2 h hh
            simp only [Function.comp]
            rw [z3]
          rw [this]; exact c1
        refine ⟨y.idx, seg, sel, ?_, q6, s1, ?_, ?_⟩
        · rcases List.mem_cons.1 hy with rfl | hy'
          · exact le_refl _
          · have hp : (e :: rest).Pairwise (fun x y => x.idx ≤ y.idx) := by rw [hfil]; exact hev1.filter _
            exact (List.pairwise_cons.1 hp).1 y hy'
        · intro hforms hlen
          have hd : dest ∈ dests := by
            rcases q8 with ⟨q8, _⟩ | ⟨d, q8, q9⟩
            · rw [y3] at q8; cases q8
            · rw [y3] at q9; cases q9; exact q8
          have hafter := (C26_destinations_partial _ _ _ _ _ _ _ _ _ q7 hlwf.discNodup hlwf.discMode hvars (by
            intro it hit hv
            obtain ⟨h, hh, _, z2, z3, z4, _⟩ := hitem it hit
            obtain ⟨p1, p2, _⟩ := s1.1 _ _ z4
            have := hforms h.path p1 (by rw [p2]; exact hv)
            rw [z3]
            exact this) hlen dest).1 hd
          refine ⟨hafter.1.symm, fun k v z hk hz => ?_⟩
          obtain ⟨a1, a2⟩ := hafter.2 k v z hk hz
          cases hsv : sel v with
          | none =>
            refine a2 ?_
            rintro it hit rfl
            obtain ⟨h, _, _, _, _, z4, _⟩ := hitem it hit
            rw [hsv] at z4; cases z4
          | some p =>
            obtain ⟨h, hh, rfl⟩ := c3 v p hsv
            obtain ⟨h', hh', z1, z2, z3, z4, sd0, z5, z6⟩ := hitem h.item (List.mem_map_of_mem hh)
            have hv : h.item.var = v := by
              obtain ⟨_, _, _, _, _, _, _, _, _, z⟩ := c2 h hh
              rw [z]
              exact (s1.1 _ _ hsv).2.1
            rw [hv, hsv] at z4
            have hpp := Option.some.inj z4
            have := a1 h.item (List.mem_map_of_mem hh) hv
            rw [z6, z3, ← hpp] at this
            exact ⟨sd0, z5, this⟩
        · intro k v hk hv
          refine applyReset_unchanged _ _ _ _ _ _ _ _ _ q7 k v hk ?_
          rintro it hit rfl
          obtain ⟨h, _, _, _, _, z4, _⟩ := hitem it hit
          rw [hv] at z4; cases z4

end

/-! ### cases -/

namespace VerEx

/-- `assert lo <= ego.x <= hi` -/
def plain (lo hi : ℚ) : Assertion Sn := { label := "safe", pre := fun _ => .ok (true, true), cond := inInterval lo hi }

theorem plain_run : (verifyOne (world okBloat open_) (node (body [plain 0 2] okPaths)) 3).map view =
    .ok ⟨none, [⟨1, [("a", ["B"]), ("b", ["A"])], [("a", [([10], [10]), ([10], [10])]), ("b", [([5], [6])])],
      [("b", [seg 1 5 6, seg 2 5 6])]⟩], okFull⟩ := by
  decide +kernel

def rejPaths : List (Path Sn Unit ℚ String Unit) := [path "agent_mode" (-100) 100 (.const "B")]
def rejTube : Tube ℚ := [seg 0 0 1, seg 1 4 5]
def rejBloat : String → List String → Tube ℚ := fun a _ => if a = "a" then rejTube else tubeB 2
def rejFull : Trace ℚ := [("a", rejTube), ("b", tubeB 2)]
/-- A map that permits no mode change. -/
def closed : Option String → List String → List String → Option String := fun _ _ _ => some "T"

theorem rej_run : (verifyOne (world rejBloat closed) (node (body [plain 0 2] rejPaths)) 2).map view = .ok ⟨none, [], rejFull⟩ := by
  decide +kernel

end VerEx

/-- The hypotheses of `C54_reported_tubes_safe_partial` are met by a node with a child and an assert. -/
example : (∃ res, verifyOne (world okBloat open_) (node (body [plain 0 2] okPaths)) 3 = .ok res ∧ res.hits = none ∧ res.next ≠ [] ∧
      HasStep res.trace 1 ∧ InTube (body [plain 0 2] okPaths) res.trace 1 okSnap) ∧
    Body.WF (body [plain 0 2] okPaths) ∧ Controlled (body [plain 0 2] okPaths) "a" (logic [plain 0 2] okPaths) ∧
    (∀ (i : Nat) a dl x sd, Controlled (body [plain 0 2] okPaths) a dl → x ∈ dl.asserts → Boxes (body [plain 0 2] okPaths) okFull i sd →
      x.cond (sense a sd) = .ok (true, true) → ∀ s, Within s sd → meaning.cond x a s) ∧
    (∀ (i : Nat) a dl x sd, Controlled (body [plain 0 2] okPaths) a dl → x ∈ dl.asserts → Boxes (body [plain 0 2] okPaths) okFull i sd →
      (∃ s, Within s sd ∧ meaning.pre x a s) → x.pre (sense a sd) = .ok (true, true)) ∧
    meaning.pre (plain 0 2) "a" okSnap := by
  refine ⟨?_, wf _ _, controlled_a _ _, ?_, ?_, rfl⟩
  · obtain ⟨res, h1, h2⟩ := (map_ok_iff _ _ _).1 plain_run
    have e1 : res.hits = none := by rw [show res.hits = (view res).hits from rfl, h2]
    have e2 : res.trace = okFull := by rw [show res.trace = (view res).tubes from rfl, h2]
    have e3 : res.next ≠ [] := by
      intro e
      have : (view res).next = [] := by simp only [view, e, List.map_nil]
      rw [h2] at this
      cases this
    refine ⟨res, h1, e1, e3, ?_, ?_⟩
    · rw [e2]; exact hasStep _ _ _ (by decide +kernel) (by decide +kernel)
    · rw [e2]
      exact inTube _ _ _ _ _ (seg 1 (1/2) (3/2)) (seg 1 5 6) (by decide +kernel) (by decide +kernel) _ _ (inside1 _ _ _ (by norm_num) (by norm_num))
        (inside1 _ _ _ (by norm_num) (by norm_num))
  · intro i a dl x sd hc hx _ hr s hs
    obtain ⟨rfl, rfl⟩ := controlled hc
    simp only [logic, List.mem_singleton] at hx
    subst hx
    exact (inInterval_spec _ _ _ s sd hs _ hr).2 rfl
  · intro i a dl x sd hc hx _ _
    obtain ⟨rfl, rfl⟩ := controlled hc
    simp only [logic, List.mem_singleton] at hx
    subst hx
    rfl

/-- **C54** fails if the map rejects the transitions found: the tube is contained in a guard in its first step, where the search ends, but there
is no child, and the whole tube is reported, without any failed assert. In its second step the assert is false. -/
theorem C54_rejected_violated : ∃ res, verifyOne (world rejBloat closed) (node (body [plain 0 2] rejPaths)) 2 = .ok res ∧ res.hits = none ∧
    res.trace = rejFull ∧ HasStep rejFull 1 ∧ plain 0 2 ∈ (logic [plain 0 2] rejPaths).asserts ∧
    Controlled (body [plain 0 2] rejPaths) "a" (logic [plain 0 2] rejPaths) ∧
    (let snap : Snap ℚ String := [("a", [4], ["A"], []), ("b", [5], ["A"], [])]
     InTube (body [plain 0 2] rejPaths) rejFull 1 snap ∧ meaning.pre (plain 0 2) "a" snap ∧ ¬ meaning.cond (plain 0 2) "a" snap) := by
  obtain ⟨res, h1, h2, h3, _⟩ := of_view rej_run
  refine ⟨res, h1, h2, h3, hasStep _ _ _ (by decide +kernel) (by decide +kernel), by simp [logic], controlled_a _ _,
    inTube _ _ _ _ _ (seg 1 4 5) (seg 1 5 6) (by decide +kernel) (by decide +kernel) _ _ (inside1 _ _ _ (by norm_num) (by norm_num))
      (inside1 _ _ _ (by norm_num) (by norm_num)), rfl, ?_⟩
  show ¬ inInterval 0 2 (point "a" [("a", [4], ["A"], []), ("b", [5], ["A"], [])]) = .ok (true, true)
  decide +kernel

/-- There is a run with a child, as in `C56_children_justified`. -/
example : ∃ res, verifyOne (world okBloat open_) (node (body [] okPaths)) 3 = .ok res ∧ Body.WF (body [] okPaths) ∧ res.next.length = 1 := by
  obtain ⟨res, h1, h2⟩ := (map_ok_iff _ _ _).1 ok_run
  refine ⟨res, h1, wf _ _, ?_⟩
  have : (view res).next.length = 1 := by rw [h2]; rfl
  simpa [view] using this

end Verif.Props
