import Verif.Proofs.Execution
import Verif.Proofs.Returned

/-! One node of the tree follows an execution through one phase, and the tree follows all of it. -/

set_option autoImplicit false
set_option linter.unusedSectionVars false

namespace Verif.Proofs.Ver

open Verif.Ver Verif.Ver.Spec Verif.Rect.Spec Verif.Rst.Spec Verif.Props

variable {S G K V D : Type} [Field K] [LinearOrder K] [DecidableEq V]

theorem le_foldl_max (l : List Nat) (a : Nat) : a ≤ l.foldl max a ∧ ∀ x ∈ l, x ≤ l.foldl max a := by
  induction l generalizing a with
  | nil => simp
  | cons y l ih =>
    obtain ⟨h1, h2⟩ := ih (max a y)
    refine ⟨le_trans (le_max_left _ _) h1, ?_⟩
    intro x hx
    rcases List.mem_cons.1 hx with rfl | hx
    · exact le_trans (le_max_right _ _) h1
    · exact h2 x hx

theorem le_getLast {l : List Nat} (hs : l.Pairwise (· ≤ ·)) {i z : Nat} (hi : i ∈ l) (hz : l.getLast? = some z) : i ≤ z := by
  obtain ⟨l', rfl⟩ : ∃ l', l = l' ++ [z] := by
    rw [List.getLast?_eq_some_iff] at hz
    exact hz
  rcases List.mem_append.1 hi with h | h
  · exact (List.pairwise_append.1 hs).2.2 i h z (by simp)
  · simp only [List.mem_singleton] at h; omega

theorem childOf_stop {w : World S K V} {b : Body S G K V D} {full : Trace K} {t : Trans S G K V D}
    {cc : List (Engine.Child (Body S G K V D) (Trace K)) × Nat} (h : childOf w b full t = .ok cc) : t.idxs.getLast? = some cc.2 := by
  unfold childOf at h
  split at h
  · rename_i st sp e1 e2
    split at h
    · injection h with h; subst h; exact e2
    · obtain ⟨c, _, rfl⟩ := (map_ok_iff _ _ _).1 h; exact e2
  · cases h

theorem grouped_sorted (evs : List (Event S G K V D)) (hs : evs.Pairwise (fun x y => x.idx ≤ y.idx)) (t : Trans S G K V D) (ht : t ∈ grouped evs) :
    t.idxs.Pairwise (· ≤ ·) := by
  obtain ⟨e, rest, k, h1, h2, h3, _⟩ := grouped_sound _ _ ht
  rw [h3, h1]
  exact List.pairwise_map.2 (hs.filter _)

variable {M : Meaning S G K V D} {w : World S K V} {b : Body S G K V D} {flow : String → List V → (Nat → List K) → Prop} {dt : ℚ} {N : Nat}
  {d : String → Nat} {n : Engine.Work (Body S G K V D) (Trace K)} {φ : Phase K V} {g off : Nat} {full : Trace K}

/-- The tubes have `N - g` rectangles. -/
theorem hasStep_iff (he : Entered b flow dt N d n φ g off) (hg : ∀ a ∈ b.agents, ∃ segs, Dict.get? full a.1 = some segs ∧ Good dt N (d a.1) g off (φ.path a.1) segs)
    (hkeys : (full.map Prod.fst).Nodup ∧ ∀ k ∈ full.map Prod.fst, k ∈ n.body.agents.map Prod.fst) {i : Nat} (hi : g + i < N) : HasStep full i := by
  intro kv hkv
  have hk := hkeys.2 kv.1 (List.mem_map_of_mem hkv)
  rw [he.agents] at hk
  obtain ⟨a, ha, e⟩ := List.mem_map.1 hk
  obtain ⟨segs, h1, h2⟩ := hg a ha
  have h3 := Dict.get?_of_mem hkeys.1 (k := kv.1) (v := kv.2) hkv
  rw [e, h3] at h1
  injection h1 with h1
  rw [h1, h2.len]; omega

theorem phase_inTube (he : Entered b flow dt N d n φ g off) (hg : ∀ a ∈ b.agents, ∃ segs, Dict.get? full a.1 = some segs ∧ Good dt N (d a.1) g off (φ.path a.1) segs)
    {k : Nat} (hk : g + off + k < N) : InTube n.body full (off + k) (φ.snap b k) := by
  unfold InTube Boxes Within Phase.snap
  rw [he.agents, he.static]
  have key : ∀ l : List (String × Logic S G K V D), (∀ a ∈ l, a ∈ b.agents) → ∃ sd : StateDict K V,
      List.Forall₂ (fun (a : String × Logic S G K V D) (x : String × Seg K × List V × List V) =>
        x.1 = a.1 ∧ (∃ segs, Dict.get? full a.1 = some segs ∧ segs[off + k]? = some x.2.1) ∧
        Dict.get? n.body.mode a.1 = some x.2.2.1 ∧ Dict.get? b.static a.1 = some x.2.2.2) l sd ∧
      List.Forall₂ (fun (x : String × List K × List V × List V) (y : String × Seg K × List V × List V) =>
        x.1 = y.1 ∧ Inside x.2.1 y.2.1.box ∧ x.2.2 = y.2.2)
        (l.map (fun a => (a.1, φ.path a.1 k, φ.mode a.1, (Dict.get? b.static a.1).getD []))) sd := by
    intro l
    induction l with
    | nil => intro _; exact ⟨[], .nil, .nil⟩
    | cons a l ih =>
      intro hl
      obtain ⟨sd, h1, h2⟩ := ih (fun x hx => hl x (by simp [hx]))
      have ha := hl a (by simp)
      obtain ⟨segs, g1, g2⟩ := hg a ha
      have hlt : off + k < segs.length := by rw [g2.len]; omega
      obtain ⟨st, hst⟩ := Option.isSome_iff_exists.1 (he.statics a ha)
      refine ⟨(a.1, segs[off + k], φ.mode a.1, st) :: sd, .cons ⟨rfl, ⟨segs, g1, List.getElem?_eq_getElem hlt⟩, he.mode a ha, hst⟩ h1, ?_⟩
      refine .cons ⟨rfl, g2.inside k _ (List.getElem?_eq_getElem hlt), ?_⟩ h2
      simp only [hst, Option.getD_some]
  exact key b.agents (fun _ h => h)

/-- The tube is contained in no guard before the phase ends. -/
theorem not_contained (he : Entered b flow dt N d n φ g off) (hg : ∀ a ∈ b.agents, ∃ segs, Dict.get? full a.1 = some segs ∧ Good dt N (d a.1) g off (φ.path a.1) segs)
    (hok : NodeOK M w n full) {steps : Nat} (hq : Quiet M b φ steps) :
    ∀ j a p, j < off + steps → ¬ ContainedAt w n.body full j a p := by
  intro j a p hj hc
  by_cases hlt : j < off
  · rcases he.new with h0 | ⟨o, ho, hnone⟩
    · omega
    · rcases he.tube o ho with ⟨segs, e1, _⟩ | ⟨_, rs, e1, _, _, r, e2, _⟩
      · rw [hnone] at e1; cases e1
      · have h1 := hok.late j a p hc o (by rw [he.agents]; exact ho) hnone rs e1
        have h2 := (List.getElem?_eq_some_iff.1 e2).1
        omega
  · obtain ⟨k, rfl⟩ := Nat.exists_eq_add_of_le (Nat.le_of_not_lt hlt)
    have hc' := hc
    obtain ⟨r, dl, sd0, sd, gd, q1, q2, q3, q4, _⟩ := hc
    have hab : (a, dl) ∈ b.agents := by rw [← he.agents]; exact q1.1
    obtain ⟨segs, g1, g2⟩ := hg _ hab
    obtain ⟨x, hx, x1, ⟨segs', x2, x3⟩, _⟩ := forall₂_mem_left q4 q1.1
    rw [g1] at x2
    injection x2 with x2
    subst x2
    have hl := (List.getElem?_eq_some_iff.1 x3).1
    rw [g2.len] at hl
    exact hq k a dl p (by omega) ⟨hab, q1.2⟩ q2 (hok.contained _ _ _ hc' _ (phase_inTube he hg (by omega)))

theorem phase_reached (he : Entered b flow dt N d n φ g off) (hg : ∀ a ∈ b.agents, ∃ segs, Dict.get? full a.1 = some segs ∧ Good dt N (d a.1) g off (φ.path a.1) segs)
    (hkeys : (full.map Prod.fst).Nodup ∧ ∀ k ∈ full.map Prod.fst, k ∈ n.body.agents.map Prod.fst)
    (hok : NodeOK M w n full) {steps : Nat} (hq : Quiet M b φ steps) {i : Nat} (hi : i ≤ off + steps) (hN : g + i < N) :
    Reached w n.body full i := by
  have hnc := not_contained he hg hok hq
  refine ⟨fun j a p hj => hnc j a p (by omega), fun j k a p hjk hki hit => ?_⟩
  exact hok.noGap j k a p hjk hit (fun i' a' p' hi' => hnc i' a' p' (by omega)) (hasStep_iff he hg hkeys (by omega))

/-- The trace of the result contains the states of the phase. -/
theorem phase_kept (wf : Body.WF b) (hsound : SoundTubes w flow dt N d) (hseg : w.segLen = 1) (he : Entered b flow dt N d n φ g off)
    (hfill : fillTubes w n.body n.start (((N - g : Nat) : ℚ) * dt) n.trace = .ok full) (hok : NodeOK M w n full)
    {res : Engine.Result (Body S G K V D) (Trace K) (Option (Dict String (List String)))}
    (hrun : verifyOne w n (((N - g : Nat) : ℚ) * dt) = .ok res) (hsafe : res.hits = none) {steps : Nat} (hq : Quiet M b φ steps) :
    ∀ k, k ≤ steps → g + off + k < N → ∀ a ∈ b.agents, ∃ segs, Dict.get? res.trace a.1 = some segs ∧
      ∃ s ∈ segs, s.t0 = ((g + off + k : Nat) : ℚ) * dt ∧ Inside (φ.path a.1 k) s.box := by
  have hwf' : Body.WF n.body := ⟨by rw [he.agents]; exact wf.names, by rw [he.agents]; exact wf.logics⟩
  have hg := full_good hsound hseg wf.names he hfill
  have hkeys := fillTubes_keys hfill he.nodup (by rw [he.agents]; exact he.keys)
  intro k hk hN a ha
  obtain ⟨segs, g1, g2⟩ := hg a ha
  have hlt : off + k < segs.length := by rw [g2.len]; omega
  have hgood : segs[off + k].t0 = ((g + off + k : Nat) : ℚ) * dt ∧ Inside (φ.path a.1 k) segs[off + k].box :=
    ⟨by rw [(g2.seg (off + k) _ (List.getElem?_eq_getElem hlt)).1]; push_cast; ring, g2.inside k _ (List.getElem?_eq_getElem hlt)⟩
  obtain ⟨full', hfill', hrun⟩ := (bind_ok_iff _ _ _).1 hrun
  rw [hfill] at hfill'
  injection hfill' with hfill'
  subst hfill'
  obtain ⟨found, hfound, h⟩ := (bind_ok_iff _ _ _).1 hrun
  cases found with
  | asserts ad idx =>
    dsimp only at h
    split at h
    · cases h
    · obtain ⟨cut, _, rfl⟩ := (map_ok_iff _ _ _).1 h
      cases hsafe
  | trans ts =>
    have hreach := phase_reached he hg hkeys hok hq (i := off + k) (by omega) (by omega)
    have hstep := hasStep_iff he hg hkeys (i := off + k) (by omega)
    have hnc := not_contained he hg hok hq
    cases ts with
    | nil =>
      cases h
      exact ⟨segs, g1, _, List.getElem_mem hlt, hgood⟩
    | cons u us =>
      dsimp only at h
      obtain ⟨cs, hcs, h⟩ := (bind_ok_iff _ _ _).1 h
      obtain ⟨cut, hcut, rfl⟩ := (map_ok_iff _ _ _).1 h
      rw [mapM_ok_iff] at hcs
      have hmax : ∀ t ∈ u :: us, ∀ i ∈ t.idxs, t.idxs.Pairwise (· ≤ ·) → i ≤ (cs.map Prod.snd).foldl max 0 := by
        intro t ht i hi hs
        obtain ⟨cc, hcc, hch⟩ := forall₂_mem_left hcs ht
        exact le_trans (le_getLast hs hi (childOf_stop hch)) ((le_foldl_max _ _).2 _ (List.mem_map_of_mem hcc))
      have hle : off + k ≤ (cs.map Prod.snd).foldl max 0 := by
        by_cases hh : ∃ a p, HitAt w n.body full (off + k) a p
        · obtain ⟨a', p, hit⟩ := hh
          obtain ⟨t, ht, hi, hs⟩ := hit_found hwf' hfound hok.resettable hok.modes hok.permits hstep hreach hit
          exact hmax t ht _ hi hs
        · obtain ⟨evs, hts, hsort, hjust, _⟩ := found_spec hwf' hfound
          have hu := ((mem_permitted _ _ hts u).1 (by simp)).1
          obtain ⟨⟨e, he1, he2⟩, _⟩ := grouped_idx evs u hu
          have hmem : e.idx ∈ u.idxs := List.mem_of_mem_head? he2
          have hle := hmax u (by simp) _ hmem (grouped_sorted evs hsort u hu)
          by_cases hlt' : off + k ≤ e.idx
          · exact le_trans hlt' hle
          · obtain ⟨dl, sel, _, _, _, _, z1, z2, _⟩ := hjust e he1
            obtain ⟨v, hv⟩ := z2.2.2
            obtain ⟨p, hp⟩ := Option.isSome_iff_exists.1 hv
            exact absurd (hok.noGap e.idx (off + k) e.agent p (by omega) (z2.1 v p hp).2.2 (fun i a' p' hi => hnc i a' p' (by omega)) hstep) hh
      obtain ⟨m1, _⟩ := mapTubes_spec hwf'.names hcut
      obtain ⟨segs', q1, q2⟩ := m1 a (by rw [he.agents]; exact ha)
      rw [g1] at q1
      injection q1 with q1
      subst q1
      refine ⟨_, q2, segs[off + k], ?_, hgood⟩
      have : (segs.take ((cs.map Prod.snd).foldl max 0 + 1))[off + k]? = some segs[off + k] := by
        rw [List.getElem?_take_of_lt (by omega)]
        exact List.getElem?_eq_getElem hlt
      exact List.mem_of_getElem? this

/-- A child continues the execution after a switch. -/
theorem phase_switch (wf : Body.WF b) (hsound : SoundTubes w flow dt N d) (hseg : w.segLen = 1) (hround : ∀ k : Nat, w.round10 ((k : ℚ) * dt) = (k : ℚ) * dt)
    (he : Entered b flow dt N d n φ g off)
    (hfill : fillTubes w n.body n.start (((N - g : Nat) : ℚ) * dt) n.trace = .ok full) (hok : NodeOK M w n full)
    {res : Engine.Result (Body S G K V D) (Trace K) (Option (Dict String (List String)))}
    (hrun : verifyOne w n (((N - g : Nat) : ℚ) * dt) = .ok res) (hsafe : res.hits = none) {steps : Nat} (hq : Quiet M b φ steps)
    {φ' : Phase K V} (hsw : Switches M w b flow φ steps φ') (hN : g + off + steps < N) :
    ∃ c ∈ res.next, ∃ g' off', g' + off' = g + off + steps ∧ ∀ h st, st = c.start → Entered b flow dt N d ⟨h, st, c.body, c.trace⟩ φ' g' off' := by
  have hwf' : Body.WF n.body := ⟨by rw [he.agents]; exact wf.names, by rw [he.agents]; exact wf.logics⟩
  have hg := full_good hsound hseg wf.names he hfill
  have hkeys := fillTubes_keys hfill he.nodup (by rw [he.agents]; exact he.keys)
  obtain ⟨full', hfill', hrun⟩ := (bind_ok_iff _ _ _).1 hrun
  rw [hfill] at hfill'
  injection hfill' with hfill'
  subst hfill'
  obtain ⟨found, hfound, h⟩ := (bind_ok_iff _ _ _).1 hrun
  cases found with
  | asserts ad idx =>
    dsimp only at h
    split at h
    · cases h
    · obtain ⟨cut, _, rfl⟩ := (map_ok_iff _ _ _).1 h
      cases hsafe
  | trans ts =>
    have hreach := phase_reached he hg hkeys hok hq (i := off + steps) (by omega) (by omega)
    have hstep := hasStep_iff he hg hkeys (i := off + steps) (by omega)
    have htube := phase_inTube he hg hN
    obtain ⟨a, dl, hcan, hflow, hother⟩ := hsw
    have hcan' : CanSwitch M w n.body (φ.snap b steps) a dl (φ'.mode a) (φ'.path a 0) := by
      obtain ⟨state, mode, static, q1, q2⟩ := hcan
      exact ⟨state, mode, static, ⟨by rw [he.agents]; exact q1.1, q1.2⟩, q2⟩
    have hextra := hok.alone _ _ _ _ _ _ htube hcan'
    obtain ⟨state, mode, static, hctl, hsnap, hlen1, hlen2, ⟨choice, c1, c2, c3, c4, c5, c6, c7⟩, hmap⟩ := hcan'
    obtain ⟨evs, hts, hsort, hjust, hall⟩ := found_spec hwf' hfound
    obtain ⟨hasked, hcombos⟩ := hall _ hstep hreach
    have hsel : Selects w n.body full (off + steps) a dl choice := by
      refine ⟨fun v p hp => ?_, fun p hp hit => ?_, c3⟩
      · obtain ⟨p1, p2, p3⟩ := c1 v p hp
        refine ⟨p1, p2, ?_⟩
        rcases hasked a dl p hctl p1 with ⟨sd0, q1, q2⟩ | ⟨r, hr⟩
        · exact absurd p3 (hok.faithful.never a dl p sd0 _ _ hctl p1 q1 q2 htube)
        · have := hok.faithful.maybe a p _ r _ hr htube p3
          exact ⟨r.2, by rw [← this]; exact hr⟩
      · obtain ⟨p', q1, q2, q3⟩ := hextra p hp hit
        rw [← q2]
        exact c2 p' q1 q3
    obtain ⟨combo, segs, m, seg, dests, rect, k1, k2, k3, k4, k5, k6, -⟩ := hcombos a dl choice hctl hsel
    have hab : (a, dl) ∈ b.agents := by rw [← he.agents]; exact hctl.1
    -- the state and mode of the agent
    obtain ⟨sd, hsd, hin⟩ := htube
    obtain ⟨y, hy, y1, y2, y3⟩ := forall₂_mem_left hin hsnap
    obtain ⟨x, hx, x1, ⟨segs2, x2, x3⟩, x4, x5⟩ := forall₂_mem_right hsd hy
    simp only at y1 y2 y3
    have hxa : x.1 = a := by rw [← x1, ← y1]
    have hym : y.2.2.1 = mode := by rw [← y3]
    rw [hxa] at x2 x4
    rw [hym] at x4
    rw [k2] at x2; injection x2 with x2; subst x2
    rw [k4] at x3; injection x3 with x3
    rw [k3] at x4; injection x4 with x4; subst x4
    rw [← x3] at y2
    obtain ⟨hdest, hpost⟩ := combo_post hwf' hok.faithful hok.resettable hsd hin hctl hlen1 hlen2 y2 c1 c4 c5 c6 c7 k1 k5
    obtain ⟨t, ht, t1, t2, ⟨k, t3, t4⟩, t5⟩ := mem_grouped_at evs hsort _ (k6 _ hdest)
    simp only at t1 t2 t3 t4
    have htp : t ∈ ts := by
      rw [mem_permitted _ _ hts]
      refine ⟨ht, dl, m, by rw [t1]; exact Dict.get?_of_mem hwf'.names hctl.1, by rw [t1]; exact k3, ?_⟩
      rw [t2]
      exact (mapAllows_iff w dl m _).2 hmap
    obtain ⟨i0, hi0, hik⟩ := hok.aligned ts hfound t htp k _ t4
    cases ts with
    | nil => cases htp
    | cons u us =>
      dsimp only at h
      obtain ⟨cs, hcs, h⟩ := (bind_ok_iff _ _ _).1 h
      obtain ⟨cut, _, rfl⟩ := (map_ok_iff _ _ _).1 h
      rw [mapM_ok_iff] at hcs
      obtain ⟨cc, hcc, hch⟩ := forall₂_mem_left hcs htp
      unfold childOf at hch
      rw [hi0, t2] at hch
      cases hlast : t.idxs.getLast? with
      | none => rw [hlast] at hch; cases hch
      | some stop =>
        rw [hlast] at hch
        dsimp only at hch
        obtain ⟨c, hc, rfl⟩ := (map_ok_iff _ _ _).1 hch
        refine ⟨c, List.mem_flatten.2 ⟨[c], List.mem_map.2 ⟨_, hcc, rfl⟩, by simp⟩, g + i0, k, by omega, ?_⟩
        rintro h st rfl
        have hag : t.agent ∈ n.body.agents.map Prod.fst := by
          rw [t1]; exact List.mem_map.2 ⟨_, hctl.1, rfl⟩
        obtain ⟨w1, w2, w3, w4, w5, w6⟩ := mkChild_spec hwf'.names hc hag
        obtain ⟨⟨v1, v2⟩, x0, hx0, segs0, s0, v3, v4, v5⟩ := mkChild_more hwf'.names hc
        rw [t1] at w3 w4 w5 w6
        refine ⟨w1.trans he.agents, w2.trans he.static, he.statics, ?_, by omega, v1, by rw [← he.agents]; exact v2, ?_, ?_, .inr ⟨_, hab, w5⟩⟩
        · obtain ⟨segs', g1, g2⟩ := hg x0 (by rw [← he.agents]; exact hx0)
          rw [v3] at g1; injection g1 with g1; subst g1
          simp only
          rw [v5, (g2.seg i0 s0 v4).1, hround]
        · intro o ho
          simp only
          rw [w3, Dict.get?_set]
          by_cases e : a = o.1
          · rw [if_pos e, e]
          · rw [if_neg e, he.mode o ho, (hother o.1 (Ne.symm e)).1]
        · intro o ho
          by_cases e : o.1 = a
          · right
            rw [e]
            refine ⟨w5, t.inits, w4, ?_, hflow, rect, t3, hpost⟩
            intro r hr
            obtain ⟨ev, hev, ev1, ev2⟩ := (grouped_idx evs t ht).2 r hr
            obtain ⟨dl', sel', segs', m', seg', dests', z1, _, _, z4, _, z6, z7, _⟩ := hjust ev hev
            rw [ev2] at z7
            obtain ⟨segs'', g1, g2⟩ := hg (a, dl) hab
            rw [ev1, t1] at z4
            rw [z4] at g1; injection g1 with g1; subst g1
            exact applyReset_dim z7 (g2.seg _ _ z6).2
          · left
            obtain ⟨segs', s', rest', z1, z2, z3, _⟩ := w6 o (by rw [he.agents]; exact ho) e
            refine ⟨_, z3, ?_⟩
            obtain ⟨segs'', g1, g2⟩ := hg o ho
            rw [z1] at g1; injection g1 with g1; subst g1
            refine ⟨by rw [List.length_drop, g2.len]; omega, ?_, ?_⟩
            · intro j s hs
              rw [List.getElem?_drop] at hs
              obtain ⟨q1, q2⟩ := g2.seg _ _ hs
              exact ⟨by rw [q1]; push_cast; ring, q2⟩
            · intro j s hs
              rw [List.getElem?_drop] at hs
              rw [(hother o.1 e).2 j]
              refine g2.inside (steps + j) s ?_
              rw [← hs]
              congr 1; omega

theorem verStep_safe {n : Engine.Work (Body S G K V D) (Trace K)} {remain : ℚ} (h : (verStep w n remain).hits = .ok none) :
    ∃ res, verifyOne w n remain = .ok res ∧ res.hits = none ∧ (verStep w n remain).next = res.next ∧ (verStep w n remain).trace = res.trace := by
  unfold verStep at h ⊢
  cases hv : verifyOne w n remain with
  | error e => rw [hv] at h; cases h
  | ok res =>
    rw [hv] at h
    simp only [Except.ok.injEq] at h
    exact ⟨res, rfl, h, rfl, rfl⟩

open Verif.Spec in
/-- The tree follows the execution. -/
theorem tree_tracks {cfg : Engine.Cfg (Body S G K V D) (Trace K) Hits} (wf : Body.WF b) (hsound : SoundTubes w flow dt N d) (hseg : w.segLen = 1)
    (hdt : 0 < dt) (hround : ∀ k : Nat, w.round10 ((k : ℚ) * dt) = (k : ℚ) * dt)
    (hround' : ∀ k : Nat, cfg.round10 ((k : ℚ) * dt) = (k : ℚ) * dt ∧ cfg.roundN ((k : ℚ) * dt) = (k : ℚ) * dt)
    (hcfg : cfg.step = verStep w) (hhor : cfg.horizon = (N : ℚ) * dt)
    (hok : ∀ n full, Visited w cfg b n → fillTubes w n.body n.start (cfg.round10 (cfg.horizon - n.start)) n.trace = .ok full → NodeOK M w n full)
    (ex : List (Phase K V × Nat)) (hex : Execution M w b flow ex) :
    ∀ (φ : Phase K V) (m : Nat) (rest : List (Phase K V × Nat)), ex = (φ, m) :: rest →
    ∀ (n : Engine.Work (Body S G K V D) (Trace K)) (g off : Nat) (t : RTree (Label (Body S G K V D) (Trace K) Hits)), Visited w cfg b n →
      Entered b flow dt N d n φ g off → Explores (problem cfg false) n.height n.start n.body n.trace t →
      (∀ mh, cfg.maxHeight = some mh → n.height + ex.length < mh) → g + off + (ex.dropLast.map Prod.snd).sum < N →
      (∀ u k, RTree.Below t u k → u.label.hits = .ok none) →
      ∃ us, PathIn t us ∧ Tracks (b.agents.map Prod.fst) dt N (g + off) ex us := by
  have node : ∀ (φ : Phase K V) (m : Nat) (n : Engine.Work (Body S G K V D) (Trace K)) (g off : Nat)
      (t : RTree (Label (Body S G K V D) (Trace K) Hits)), Visited w cfg b n →
      Entered b flow dt N d n φ g off → Explores (problem cfg false) n.height n.start n.body n.trace t →
      (∀ mh, cfg.maxHeight = some mh → n.height + 1 < mh) → g + off < N → t.label.hits = .ok none → Quiet M b φ m →
      (∀ a ∈ b.agents.map Prod.fst, Dict.get? t.label.body.mode a = some (φ.mode a)) ∧
      (∀ k, k ≤ m → g + off + k < N → ∀ a ∈ b.agents.map Prod.fst, ∃ segs, Dict.get? t.label.trace a = some segs ∧
        ∃ s ∈ segs, s.t0 = ((g + off + k : Nat) : ℚ) * dt ∧ Inside (φ.path a k) s.box) ∧
      ∀ φ', Switches M w b flow φ m φ' → g + off + m < N → ∃ n' g' off', ∃ t' ∈ t.kids, g' + off' = g + off + m ∧ Visited w cfg b n' ∧
        Entered b flow dt N d n' φ' g' off' ∧ n'.height = n.height + 1 ∧ Explores (problem cfg false) n'.height n'.start n'.body n'.trace t' := by
    intro φ m n g off t hvis hent hexp hh hN hhits hq
    have hsub : cfg.horizon - n.start = ((N - g : Nat) : ℚ) * dt := by
      rw [hhor, hent.start, Nat.cast_sub (by omega)]; ring
    have hremain : cfg.round10 (cfg.horizon - n.start) = ((N - g : Nat) : ℚ) * dt := by rw [hsub, (hround' _).1]
    have hexplored : (problem cfg false).explored n.height n.start := by
      refine ⟨hh, ?_⟩
      rw [hremain]
      have : (0 : ℚ) < ((N - g : Nat) : ℚ) := by
        rw [Nat.cast_pos]; omega
      positivity
    obtain ⟨_, _, e3, e4 | ⟨_, e5, e6, e7⟩⟩ := Engine.explores_node hexp
    · exact absurd hexplored e4.1
    have hwork : (⟨n.height, n.start, n.body, n.trace⟩ : Engine.Work (Body S G K V D) (Trace K)) = n := rfl
    have hexpand : (problem cfg false).expand n = { verStep w n (((N - g : Nat) : ℚ) * dt) with hits := (verStep w n (((N - g : Nat) : ℚ) * dt)).hits } := by
      simp only [problem, hcfg, hremain]
      rfl
    rw [hwork, hexpand] at e5 e6 e7
    dsimp only at e5 e6 e7
    rw [hhits] at e6
    obtain ⟨res, r1, r2, r3, r4⟩ := verStep_safe e6.symm
    obtain ⟨full, hfill, _⟩ := (bind_ok_iff _ _ _).1 r1
    have hnok := hok n full hvis (by rw [hremain]; exact hfill)
    refine ⟨?_, ?_, ?_⟩
    · intro a ha
      obtain ⟨x, hx, rfl⟩ := List.mem_map.1 ha
      rw [e3]; exact hent.mode x hx
    · intro k hk hkN a ha
      obtain ⟨x, hx, rfl⟩ := List.mem_map.1 ha
      rw [e5, r4]
      exact phase_kept wf hsound hseg hent hfill hnok r1 r2 hq k hk hkN x hx
    · intro φ' hsw hmN
      obtain ⟨c, hc, g', off', hsum, hent'⟩ := phase_switch wf hsound hseg hround hent hfill hnok r1 r2 hq hsw hmN
      have hst : cfg.roundN c.start = c.start := by
        have := (hent' 0 c.start rfl).start
        simp only at this
        rw [this, (hround' _).2]
      have hc' : c ∈ (verStep w n (((N - g : Nat) : ℚ) * dt)).next := by rw [r3]; exact hc
      obtain ⟨t', ht', hx'⟩ := forall₂_mem_left e7 hc'
      exact ⟨⟨n.height + 1, cfg.roundN c.start, c.body, c.trace⟩, g', off', t', ht', hsum, .child hvis (by rw [hremain]; exact hc'),
        hent' _ _ hst, rfl, hx'⟩
  induction hex with
  | @last φ0 m0 hq =>
    intro φ m rest heq n g off t hvis hent hexp hh hN hsafe
    cases heq
    obtain ⟨h1, h2, _⟩ := node φ0 m0 n g off t hvis hent hexp (fun mh hm => by simpa using hh mh hm) hent.before (hsafe t 0 (.refl t)) hq
    exact ⟨[t.label], .root, .cons h1 h2 .nil⟩
  | @switch φ0 m0 φ1 m1 rest1 hq hsw _ ih =>
    intro φ m rest heq n g off t hvis hent hexp hh hN hsafe
    cases heq
    have hsum : m0 + (((φ1, m1) :: rest1).dropLast.map Prod.snd).sum = (((φ0, m0) :: (φ1, m1) :: rest1).dropLast.map Prod.snd).sum := by
      simp
    obtain ⟨h1, h2, h3⟩ := node φ0 m0 n g off t hvis hent hexp (fun mh hm => by
      have := hh mh hm
      simp only [List.length_cons] at this; omega) hent.before (hsafe t 0 (.refl t)) hq
    obtain ⟨n', g', off', t', ht', hg', hvis', hent', hheight, hexp'⟩ := h3 φ1 hsw (by omega)
    obtain ⟨us, u1, u2⟩ := ih φ1 m1 rest1 rfl n' g' off' t' hvis' hent' hexp' (fun mh hm => by
      have := hh mh hm
      simp only [List.length_cons] at this ⊢; omega) (by omega) (fun u k hb => by
        cases t with
        | node dd kids => exact hsafe u (k + 1) (.step ht' hb))
    refine ⟨t.label :: us, .down ht' u1, .cons h1 h2 ?_⟩
    rw [← hg']
    exact u2

end Verif.Proofs.Ver
