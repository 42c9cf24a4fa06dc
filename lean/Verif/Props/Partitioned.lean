import Verif.Proofs.Verifier4
import Verif.Proofs.Execution
import Verif.Props.VerifierEx

/-!
Property C31: the step of `verify_partitioned`.
-/

set_option autoImplicit false
set_option linter.unusedSectionVars false

namespace Verif.Props

open Verif.Ver Verif.Ver.Spec Verif.Proofs.Ver Verif.Rect.Spec Verif.Rst.Spec

section
variable {S G K V D : Type} [Field K] [LinearOrder K] [IsStrictOrderedRing K] [DecidableEq V]

/-- How the tube of an agent comes from its initial rectangles in the partitioned analysis, with the time shifted to the start of the
node. -/
def FromParts (w : PWorld S K V) (start remain : ℚ) (a : String) (m : List V) (i : List (Rect.Box K)) (t : Tube K) : Prop :=
  ∃ t0, partTube (fun r => w.bloat a m r remain) i = .ok t0 ∧ t = t0.map (fun s => { s with t0 := s.t0 + start, t1 := s.t1 + start })

/-- The child for a switch at the first step at which a guard of the agent may be satisfied: it begins at this step, with the parts of the rectangle
after the reset. -/
theorem part_switch {w : PWorld S K V} {n : Engine.Work (Body S G K V D) (Trace K)} {remain : ℚ}
    {res : Engine.Result (Body S G K V D) (Trace K) (Option (Dict String (List String)))} (wf : Body.WF n.body)
    (hrun : verifyPart w n remain = .ok res) (hsafe : res.hits = none) (hparts : 0 < w.parts) {full : Trace K}
    (hfill : fillParts w n.body n.start remain n.trace = .ok full)
    {M : Meaning S G K V D} (hM : Faithful M w.toWorld n.body full) (hR : Resettable w.toWorld n.body full) (hP : PartFaithful M w n.body full)
    {i : Nat} {snap : Snap K V} {a : String} {dl : Logic S G K V D} {dest : List V} {post : List K}
    (hstep : HasStep full i) (hreach : Reached w.toWorld n.body full i) (htube : InTube n.body full i snap)
    (hswitch : CanSwitch M w.toWorld n.body snap a dl dest post) (hextra : NoExtraHit M w.toWorld n.body full i a dl snap)
    (hfirst : ∀ j p, j < i → ¬ HitAt w.toWorld n.body full j a p) (hone : OnePath w.toWorld n.body full i a dl) (hdims : DimsOk w.dims dl.cont.length) :
    ∃ c ∈ res.next, ∃ (t : Trans S G K V D) (rs : List (Rect.Box K)) (rect : Rect.Box K),
      mkChild w.toWorld n.body full { t with inits := rs } dest i = .ok c ∧ t.agent = a ∧ rect ∈ rs ∧ Inside post rect ∧
      ∀ r ∈ rs, Dim dl.cont.length r := by
  obtain ⟨full', hfill', h⟩ := (bind_ok_iff _ _ _).1 hrun
  rw [hfill] at hfill'
  injection hfill' with hfill'
  subst hfill'
  obtain ⟨found, hfound, h⟩ := (bind_ok_iff _ _ _).1 h
  cases found with
  | asserts d idx =>
    dsimp only at h
    split at h
    · cases h; cases hsafe
    · obtain ⟨cut, _, rfl⟩ := (map_ok_iff _ _ _).1 h
      cases hsafe
  | trans ts =>
    obtain ⟨state, mode, static, hctl, hsnap, hlen1, hlen2, ⟨choice, c1, c2, c3, c4, c5, c6, c7⟩, hmap⟩ := hswitch
    obtain ⟨evs, e, seg, segs, hts, hsorted, hall, he, ea, ed, ei, hsel, hcombo, hmode, hsegs, hseg, hinside⟩ :=
      switch_event wf hfound M hM hR i snap a dl dest state mode static hstep hreach htube hctl hsnap hlen2 choice c1 c2 c3 c4 c6 hextra
    obtain ⟨t, ht, t1, t2, e0, he0, e1, e2, e3, e4⟩ := grouped_first evs hsorted e he
    rw [ea] at t1 e1
    rw [ed] at t2
    rw [ei] at e2
    -- the first event of the transition is at step `i`, with the same paths
    obtain ⟨dl0, sel, hctl0, hsel0, hcombo0⟩ := hall e0 he0
    rw [e1] at hctl0 hsel0 hcombo0
    have hdl : dl0 = dl := by
      have h1 := Dict.get?_of_mem wf.names hctl0.1
      rw [Dict.get?_of_mem wf.names hctl.1] at h1
      cases h1; rfl
    subst hdl
    have hidx : e0.idx = i := by
      by_contra hne
      obtain ⟨v, hv⟩ := hsel0.2.2
      obtain ⟨p, hp⟩ := Option.isSome_iff_exists.1 hv
      exact hfirst e0.idx p (by omega) (hsel0.1 v p hp).2.2
    rw [hidx] at e3 hsel0 hcombo0
    have hpart : ∀ v, sel v = choice v := by
      have one : ∀ (s s' : String → Option (Path S G K V D)), Selects w.toWorld n.body full i a dl0 s → Selects w.toWorld n.body full i a dl0 s' →
          ∀ v p, s v = some p → s' v = some p := by
        intro s s' hs hs' v p hp
        obtain ⟨p1, p2, p3⟩ := hs.1 v p hp
        obtain ⟨q, hq⟩ := Option.isSome_iff_exists.1 (hs'.2.1 p p1 p3)
        obtain ⟨q1, q2, q3⟩ := hs'.1 _ q hq
        have := hone p p1 q q1 q2.symm p3 q3
        rw [← p2, hq, this]
      intro v
      cases hv : sel v with
      | some p => exact (one sel choice hsel0 hsel v p hv).symm
      | none =>
        cases hv' : choice v with
        | none => rfl
        | some p => rw [one choice sel hsel hsel0 v p hv'] at hv; cases hv
    have hpart : sel = choice := funext hpart
    subst hpart
    -- the transition is permitted
    have htp : t ∈ ts := by
      rw [mem_permitted _ _ hts]
      refine ⟨ht, dl0, mode, by rw [t1]; exact Dict.get?_of_mem wf.names hctl.1, by rw [t1]; exact hmode, ?_⟩
      rw [t2]
      exact (mapAllows_iff w.toWorld dl0 mode dest).2 hmap
    cases ts with
    | nil => cases htp
    | cons u us =>
      dsimp only at h
      obtain ⟨cs, hcs, h⟩ := (bind_ok_iff _ _ _).1 h
      obtain ⟨cut, _, rfl⟩ := (map_ok_iff _ _ _).1 h
      rw [mapM_ok_iff] at hcs
      obtain ⟨cc, hcc, hch⟩ := forall₂_mem_left hcs htp
      unfold partChild at hch
      rw [e3, t2] at hch
      cases hlast : t.idxs.getLast? with
      | none => rw [hlast] at hch; cases hch
      | some stop =>
        rw [hlast] at hch
        dsimp only at hch
        obtain ⟨rs, hrs, hch⟩ := (bind_ok_iff _ _ _).1 hch
        obtain ⟨c, hc, rfl⟩ := (map_ok_iff _ _ _).1 hch
        refine ⟨c, List.mem_map.2 ⟨_, hcc, rfl⟩, t, rs, ?_⟩
        -- the part with the state
        unfold partInits at hrs
        rw [t1, Dict.get?_of_mem wf.names hctl.1, hsegs, hmode] at hrs
        dsimp only at hrs
        rw [hseg] at hrs
        dsimp only at hrs
        obtain ⟨ps, hps, hrs⟩ := (bind_ok_iff _ _ _).1 hrs
        obtain ⟨sd, hsd, hrs⟩ := (bind_ok_iff _ _ _).1 hrs
        rw [stateDict_ok_iff] at hsd
        rw [mapM_ok_iff] at hrs
        obtain ⟨sd', hsd', hin⟩ := id htube
        rw [boxes_det hsd' hsd] at hin
        have hsl : state.length = seg.box.1.length := (hinside.1.length_eq).symm
        have hle : List.Forall₂ (fun (x y : K) => x ≤ y) seg.box.1 seg.box.2 := by
          have := hinside
          rw [forall₂_le_iff]
          obtain ⟨⟨l1, k1⟩, ⟨l2, k2⟩⟩ := And.intro ((forall₂_le_iff _ _).1 hinside.1) ((forall₂_le_iff _ _).1 hinside.2)
          refine ⟨by omega, fun k x y hx hy => ?_⟩
          have hk : k < state.length := by
            have := (List.getElem?_eq_some_iff.1 hx).1
            omega
          exact le_trans (k1 k x state[k] hx (List.getElem?_eq_getElem hk)) (k2 k state[k] y (List.getElem?_eq_getElem hk) hy)
        obtain ⟨ps', hps', hcov, hprop, _⟩ := C29_partition (dl0.cont.length + 1) w.parts ((0 : K) :: seg.box.1, (0 : K) :: seg.box.2)
          ⟨by simp; omega, .cons (le_refl _) hle⟩ hparts w.dims _ rfl (by
            cases hd : w.dims with
            | none =>
              simp only [Option.getD_none]
              exact (List.nodup_range.sublist (List.drop_sublist _ _)).filter _
            | some ds => exact (hdims ds hd).1.filter _) (by
            intro k hk
            cases hd : w.dims with
            | none =>
              rw [hd] at hk
              simp only [Option.getD_none] at hk
              exact List.mem_range.1 (List.mem_of_mem_drop (List.mem_filter.1 hk).1)
            | some ds =>
              rw [hd] at hk
              have := (hdims ds hd).2 k (List.mem_filter.1 hk).1
              omega)
        rw [hps] at hps'
        cases hps'
        obtain ⟨part, hpart, hpin⟩ := hcov (0 :: state) ⟨.cons (le_refl _) hinside.1, .cons (le_refl _) hinside.2⟩
        obtain ⟨r, hr, hrp⟩ := forall₂_mem_left hrs hpart
        have hpin' : Inside state (part.1.tail, part.2.tail) := by
          obtain ⟨p1, p2⟩ := part
          obtain ⟨i1, i2⟩ := hpin
          cases i1 with
          | cons _ i1 => cases i2 with
            | cons _ i2 => exact ⟨i1, i2⟩
        -- the reset of the part
        unfold partInit at hrp
        dsimp only at hrp
        obtain ⟨⟨dests, rect⟩, hreset, rfl⟩ := (map_ok_iff _ _ _).1 hrp
        have hlwf := wf.logics _ hctl.1
        have hnames : (snap.map Prod.fst).Nodup := by
          have hh : snap.map Prod.fst = n.body.agents.map Prod.fst := by
            have h1 : snap.map Prod.fst = sd.map Prod.fst := by
              clear * - hin
              induction hin with
              | nil => rfl
              | cons h _ ih => simp only [List.map_cons, ih, h.1]
            have h2 : sd.map Prod.fst = n.body.agents.map Prod.fst := by
              unfold Boxes at hsd
              generalize n.body.agents = ags at hsd
              clear * - hsd
              induction hsd with
              | nil => rfl
              | cons h _ ih => simp only [List.map_cons, ih, h.1]
            rw [h1, h2]
          rw [hh]; exact wf.names
        have hmoved := withinMoved_set a mode dest snap sd { seg with box := (part.1.tail, part.2.tail) } hin hnames state static hsnap hpin'
        have hpost : Inside post rect := by
          refine C26_reset_rectangle_partial _ _ _ _ _ _ _ _ _ hreset hlwf.contNodup hlwf.contMode ?_ ?_ state post
            (fun it => match sel it.var with | some p => M.vars p a snap | none => fun _ => none) ?_ hlen1 hpin' ⟨c5, ?_⟩
          · have := hcombo0.1
            rw [e4, List.map_map, List.map_map]
            exact this
          · intro it hit
            obtain ⟨p, hp, rfl⟩ := List.mem_map.1 hit
            rw [e4] at hp
            obtain ⟨h, hh, rfl⟩ := List.mem_map.1 hp
            intro ex hval hv
            have hpm := (c1 _ _ (hcombo0.2.1 h hh).1).1
            exact hP.reset a dl0 h.path i snap _ dest ex hctl hpm htube hmoved hval hv
          · intro it hit
            obtain ⟨p, hp, rfl⟩ := List.mem_map.1 hit
            rw [e4] at hp
            obtain ⟨h, hh, rfl⟩ := List.mem_map.1 hp
            have hs := (hcombo0.2.1 h hh).1
            have hpm := (c1 _ _ hs).1
            simp only [hs]
            exact hP.range a dl0 h.path i snap _ dest hctl hpm htube hmoved
          · intro j v hv
            have hjv := c7 j v hv
            refine ⟨fun it hit hit2 => ?_, fun hno => ?_⟩
            · obtain ⟨p, hp, rfl⟩ := List.mem_map.1 hit
              rw [e4] at hp
              obtain ⟨h, hh, rfl⟩ := List.mem_map.1 hp
              have hs := (hcombo0.2.1 h hh).1
              simp only at hit2
              simp only [hs]
              rw [hit2] at hs
              rw [hs] at hjv
              exact hjv
            · cases hcv : sel v with
              | none => rw [hcv] at hjv; exact hjv
              | some p =>
                obtain ⟨h, hh, rfl⟩ := hcombo0.2.2 v p hcv
                exact absurd (c1 _ _ hcv).2.1 (hno _ (List.mem_map_of_mem (by rw [e4]; exact List.mem_map_of_mem hh)))
        refine ⟨rect, hc, t1, hr, hpost, fun r' hr' => ?_⟩
        obtain ⟨part', hpart', hrp'⟩ := forall₂_mem_right hrs hr'
        unfold partInit at hrp'
        dsimp only at hrp'
        obtain ⟨⟨dests', rect'⟩, hreset', rfl⟩ := (map_ok_iff _ _ _).1 hrp'
        obtain ⟨⟨l1, l2⟩, _⟩ := hprop part' hpart'
        have l3 := l2.length_eq
        exact applyReset_dim hreset' ⟨by simp only [List.length_tail]; omega, by simp only [List.length_tail]; omega⟩

/-- **C31**, in part. Let the step of a node report no failed assert. If the answers about guards and the sensed ranges are right, then for
every state of the tubes at step `i` in which an agent can switch, there is a child that covers the switch, provided that `i` is the first
step at which a guard of this agent may be satisfied, that the earlier steps do not end the search, that no guard for another variable may be
satisfied elsewhere in the tube at step `i`, and that at most one path per variable may be satisfied there.

Missing: later steps (`C31_later_step_violated`) and other paths to the same mode (`C31_other_path_violated`), for which the claim is
false. -/
theorem C31_switch_covered_partial (w : PWorld S K V) (n : Engine.Work (Body S G K V D) (Trace K)) (remain : ℚ)
    (res : Engine.Result (Body S G K V D) (Trace K) (Option (Dict String (List String)))) (wf : Body.WF n.body)
    (hrun : verifyPart w n remain = .ok res) (hsafe : res.hits = none) (hparts : 0 < w.parts) :
    ∃ full, Tubes n.body (FromParts w n.start remain) n.trace full ∧
      ∀ (M : Meaning S G K V D), Faithful M w.toWorld n.body full → Resettable w.toWorld n.body full → PartFaithful M w n.body full →
      ∀ i snap a dl dest post, HasStep full i → Reached w.toWorld n.body full i → InTube n.body full i snap →
        CanSwitch M w.toWorld n.body snap a dl dest post → NoExtraHit M w.toWorld n.body full i a dl snap →
        (∀ j p, j < i → ¬ HitAt w.toWorld n.body full j a p) → OnePath w.toWorld n.body full i a dl → DimsOk w.dims dl.cont.length →
        ∃ c ∈ res.next, Covers n.body full i a dest post c := by
  obtain ⟨full, hfill, h⟩ := (bind_ok_iff _ _ _).1 hrun
  refine ⟨full, fillParts_spec wf.names hfill, ?_⟩
  intro M hM hR hP i snap a dl dest post hstep hreach htube hswitch hextra hfirst hone hdims
  obtain ⟨c, hcn, t, rs, rect, hc, t1, hr, hpost, -⟩ :=
    part_switch wf hrun hsafe hparts hfill hM hR hP hstep hreach htube hswitch hextra hfirst hone hdims
  refine ⟨c, hcn, ?_⟩
  obtain ⟨_, _, _, hctl, _⟩ := hswitch
  have hag : t.agent ∈ n.body.agents.map Prod.fst := by
    rw [t1]; exact List.mem_map.2 ⟨_, hctl.1, rfl⟩
  obtain ⟨k1, k2, k3, k4, k5, k6⟩ := mkChild_spec wf.names hc hag
  simp only [t1] at k3 k4 k5 k6
  refine ⟨k1, k2, fun o => ?_, ⟨rs, k4, rect, hr, hpost⟩, k5, i, le_refl _, fun o ho hne => ?_⟩
  · rw [k3, Dict.get?_set]
    by_cases e : a = o
    · rw [if_pos e, if_pos e.symm]
    · rw [if_neg e, if_neg (Ne.symm e)]
  · obtain ⟨segs, _, _, g1, _, g3, _⟩ := k6 o ho hne
    exact ⟨segs, g1, g3⟩

end

/-! ### the tube of several initial rectangles -/

section
variable {K : Type} [LinearOrder K]

/-- The combined tube contains the tubes of all initial rectangles, step by step, with their times. -/
theorem C31_tube_covers (bloat : Rect.Box K → Tube K) (d m : Nat) (is : List (Rect.Box K)) (hne : is ≠ [])
    (h : ∀ r ∈ is, (bloat r).length = m ∧ ∀ s ∈ bloat r, Proper d s.box) :
    ∃ t, partTube bloat is = .ok t ∧ t.length = m ∧ ∀ r ∈ is, ∀ (k : Nat) (s : Seg K), (bloat r)[k]? = some s →
      ∃ s' : Seg K, t[k]? = some s' ∧ s'.t0 ≤ s.t0 ∧ s.t1 ≤ s'.t1 ∧ ∀ p, Inside p s.box → Inside p s'.box := by
  have hone : ∀ i : Rect.Box K, fullTube bloat 1000 [i] = .ok (bloat i) := by
    rintro ⟨l, u⟩; rfl
  have hu : ∀ l : List (Rect.Box K), l.mapM (fun i => fullTube bloat 1000 [i]) = .ok (l.map bloat) := by
    intro l
    rw [Proofs.Cont.mapM_map_ok]
    intro i _
    exact hone i
  match is, hne with
  | [i], _ =>
    refine ⟨bloat i, hone i, (h i (by simp)).1, fun r hr k s hs => ?_⟩
    simp only [List.mem_singleton] at hr
    subst hr
    exact ⟨s, hs, le_refl _, le_refl _, fun p hp => hp⟩
  | i :: i' :: is, _ =>
    generalize hl : i :: i' :: is = l at h
    have hpt : partTube bloat (i :: i' :: is) = unionTubes (l.map bloat) := by
      show Except.bind ((i :: i' :: is).mapM (fun i => fullTube bloat 1000 [i])) unionTubes = _
      rw [hu, hl]; rfl
    have hcol : ∀ k, k < m → segColumn (l.map bloat) k = .ok (l.map (fun r => (bloat r).getD k ⟨0, 0, ([], [])⟩)) := by
      intro k hk
      unfold segColumn
      rw [Proofs.Cont.mapM_map_ok (g := fun t : Tube K => t.getD k ⟨0, 0, ([], [])⟩), List.map_map]
      · rfl
      · intro t ht
        obtain ⟨r, hr, rfl⟩ := List.mem_map.1 ht
        have : k < (bloat r).length := by rw [(h r hr).1]; exact hk
        simp [List.getElem?_eq_getElem this]
    have hmin : ∀ (l : List ℚ) (b : ℚ), l.foldl min b ≤ b ∧ ∀ x ∈ l, l.foldl min b ≤ x := by
      intro l
      induction l with
      | nil => intro b; simp
      | cons c l ih =>
        intro b
        obtain ⟨i1, i2⟩ := ih (min b c)
        simp only [List.foldl_cons, List.mem_cons]
        refine ⟨le_trans i1 (min_le_left _ _), ?_⟩
        rintro x (rfl | hx)
        · exact le_trans i1 (min_le_right _ _)
        · exact i2 x hx
    have hmax : ∀ (l : List ℚ) (b : ℚ), b ≤ l.foldl max b ∧ ∀ x ∈ l, x ≤ l.foldl max b := by
      intro l
      induction l with
      | nil => intro b; simp
      | cons c l ih =>
        intro b
        obtain ⟨i1, i2⟩ := ih (max b c)
        simp only [List.foldl_cons, List.mem_cons]
        refine ⟨le_trans (le_max_left _ _) i1, ?_⟩
        rintro x (rfl | hx)
        · exact le_trans (le_max_right _ _) i1
        · exact i2 x hx
    have hun : ∀ (ss : List (Seg K)), ss ≠ [] → (∀ s ∈ ss, Proper d s.box) → ∃ s' : Seg K, unionSeg ss = .ok s' ∧
        ∀ s ∈ ss, s'.t0 ≤ s.t0 ∧ s.t1 ≤ s'.t1 ∧ ∀ p, Inside p s.box → Inside p s'.box := by
      intro ss hss hp
      cases ss with
      | nil => exact absurd rfl hss
      | cons s ss =>
        obtain ⟨c, hc⟩ := (C30_combine_total (s.box :: ss.map Seg.box) (by simp)).1
        obtain ⟨_, g, _⟩ := C30_combine_rect d _ c (by
          intro b hb
          have : b ∈ (s :: ss).map Seg.box := by simpa using hb
          obtain ⟨x, hx, rfl⟩ := List.mem_map.1 this
          exact hp x hx) hc
        refine ⟨⟨(ss.map Seg.t0).foldl min s.t0, (ss.map Seg.t1).foldl max s.t1, c⟩, by simp only [unionSeg, hc]; rfl, ?_⟩
        intro x hx
        have hb : x.box ∈ s.box :: ss.map Seg.box := by
          have := List.mem_map_of_mem (f := Seg.box) hx
          simpa using this
        refine ⟨?_, ?_, g _ hb⟩
        · rcases List.mem_cons.1 hx with rfl | hx
          · exact (hmin _ _).1
          · exact (hmin _ _).2 _ (List.mem_map_of_mem hx)
        · rcases List.mem_cons.1 hx with rfl | hx
          · exact (hmax _ _).1
          · exact (hmax _ _).2 _ (List.mem_map_of_mem hx)
    have hstep : ∀ k, k < m → ∃ s' : Seg K, (segColumn (l.map bloat) k).bind unionSeg = .ok s' ∧ ∀ r ∈ l, ∀ s : Seg K, (bloat r)[k]? = some s →
        s'.t0 ≤ s.t0 ∧ s.t1 ≤ s'.t1 ∧ ∀ p, Inside p s.box → Inside p s'.box := by
      intro k hk
      obtain ⟨s', g1, g2⟩ := hun (l.map (fun r => (bloat r).getD k ⟨0, 0, ([], [])⟩)) (by rw [← hl]; simp) (by
        intro s hs
        obtain ⟨r, hr, rfl⟩ := List.mem_map.1 hs
        have : k < (bloat r).length := by rw [(h r hr).1]; exact hk
        simp only [List.getD_eq_getElem?_getD, List.getElem?_eq_getElem this, Option.getD_some]
        exact (h r hr).2 _ (List.getElem_mem _))
      refine ⟨s', by rw [hcol k hk]; exact g1, fun r hr s hs => ?_⟩
      have := g2 ((bloat r).getD k ⟨0, 0, ([], [])⟩) (List.mem_map_of_mem (f := fun r => (bloat r).getD k ⟨0, 0, ([], [])⟩) hr)
      simpa only [List.getD_eq_getElem?_getD, hs, Option.getD_some] using this
    choose g hg using hstep
    have hlen : (l.map bloat) = bloat i :: (i' :: is).map bloat := by rw [← hl]; rfl
    have hi : (bloat i).length = m := (h i (by rw [← hl]; simp)).1
    refine ⟨(List.range m).pmap (fun k hk => g k hk) (fun k hk => List.mem_range.1 hk), ?_, by simp, fun r hr k s hs => ?_⟩
    · rw [← hl, hpt, hlen]
      simp only [unionTubes]
      rw [hi, ← hlen, mapM_ok_iff, List.forall₂_iff_get]
      refine ⟨by simp, fun k h1 h2 => ?_⟩
      simp only [List.get_eq_getElem, List.getElem_range, List.getElem_pmap]
      exact (hg k (by simpa using h1)).1
    · have hk : k < m := by
        have := (List.getElem?_eq_some_iff.1 hs).1
        rw [(h r hr).1] at this
        exact this
      refine ⟨g k hk, ?_, (hg k hk).2 r hr s hs⟩
      rw [List.getElem?_eq_getElem (by simpa using hk)]
      simp

/-- Two initial rectangles, with two steps each. -/
example : (∀ r ∈ [(([0], [1]) : Rect.Box ℚ), ([2], [3])],
      ((fun r : Rect.Box ℚ => [⟨0, 1, r⟩, ⟨1, 2, r⟩]) r : Tube ℚ).length = 2) ∧
    partTube (fun r : Rect.Box ℚ => [⟨0, 1, r⟩, ⟨1, 2, r⟩]) [([0], [1]), ([2], [3])] = .ok [⟨0, 1, ([0], [3])⟩, ⟨1, 2, ([0], [3])⟩] :=
  ⟨by simp, by decide +kernel⟩

end

/-! ### cases -/

namespace VerEx

def pworld (bloat : String → List String → Tube ℚ) (parts : Nat) : PWorld Sn ℚ String :=
  { world bloat open_ with parts := parts, dims := none, sensedCont := fun _ => [] }

/-- A switch that resets the mode and `x`. -/
theorem canSwitch_both (bloat : String → List String → Tube ℚ) (asserts : List (Assertion Sn)) (paths : List (Path Sn Unit ℚ String Unit))
    (x y lo hi lo' hi' z : ℚ) (m : String) (e : Rst.Ex) (hm : path "agent_mode" lo hi (.const m) ∈ paths) (hx : path "x" lo' hi' (.arith e) ∈ paths)
    (h1 : lo ≤ x ∧ x ≤ hi) (h2 : lo' ≤ x ∧ x ≤ hi') (he : value rd (fun _ => none) e = some z)
    (honly : ∀ p ∈ paths, p.var = "agent_mode" ∨ p.var = "x") :
    CanSwitch meaning (world bloat open_) (body asserts paths) [("a", [x], ["A"], []), ("b", [y], ["A"], [])] "a" (logic asserts paths) [m] [z] := by
  refine ⟨[x], ["A"], [], controlled_a _ _, by simp, rfl, rfl, ⟨fun v => if v = "agent_mode" then some (path "agent_mode" lo hi (.const m)) else
      if v = "x" then some (path "x" lo' hi' (.arith e)) else none, ?_, ?_, ⟨"agent_mode", by simp⟩, rfl, rfl, ?_, ?_⟩, permits _ _ _ _ _⟩
  · intro v p hv
    dsimp only at hv
    by_cases e : v = "agent_mode"
    · rw [if_pos e] at hv
      cases hv
      exact ⟨hm, e.symm, by simp [meaning, point, path, inInterval, h1.1, h1.2]⟩
    · rw [if_neg e] at hv
      by_cases e : v = "x"
      · rw [if_pos e] at hv
        cases hv
        exact ⟨hx, e.symm, by simp [meaning, point, path, inInterval, h2.1, h2.2]⟩
      · rw [if_neg e] at hv; cases hv
  · intro p hp _
    rcases honly p hp with h | h <;> rw [h] <;> simp
  · intro i v z hv hz
    match i with
    | 0 =>
      simp only [logic, List.getElem?_cons_zero, Option.some.injEq] at hv hz
      subst hv; subst hz
      simp only [if_true]
      exact .const _
    | i + 1 => simp [logic] at hv
  · intro i v hv
    match i with
    | 0 =>
      simp only [logic, List.getElem?_cons_zero, Option.some.injEq] at hv
      subst hv
      beta_reduce
      rw [if_neg (by decide), if_pos rfl]
      exact ⟨_, rfl, z, rfl, he⟩
    | i + 1 => simp [logic] at hv

/-- The expressions have no variables. -/
theorem partFaithful (bloat : String → List String → Tube ℚ) (parts : Nat) (asserts : List (Assertion Sn)) (paths : List (Path Sn Unit ℚ String Unit))
    (he : ∀ p ∈ paths, ∀ e, p.val = .arith e → e = .atom ['1', '0'] ∨ e = .add (.atom ['1', '0']) (.atom ['1', '0'])) (tr : Trace ℚ) :
    PartFaithful meaning (pworld bloat parts) (body asserts paths) tr := by
  have hrd : rd ['1', '0'] = some 10 := by decide +kernel
  refine ⟨fun a dl p i snap sd dest _ _ _ _ t => rfl, fun a dl p i snap sd dest e hc hp _ _ hv _ => ?_⟩
  obtain ⟨rfl, rfl⟩ := controlled hc
  rcases he p hp e hv with rfl | rfl
  · refine ⟨⟨by simp [pworld], by simp [pworld], by simp [pworld], by simp [pworld]⟩, trivial, fun vars hv => ⟨⟨10, ?_⟩, by simp [pworld]⟩⟩
    have : vars ['1', '0'] = none := hv ['1', '0']
    simp only [value, this, Option.none_or]
    exact hrd
  · refine ⟨⟨by simp [pworld], by simp [pworld], by simp [pworld], by simp [pworld]⟩, ⟨trivial, trivial⟩, fun vars hv => ⟨⟨20, ?_⟩, by simp [pworld]⟩⟩
    have : vars ['1', '0'] = none := hv ['1', '0']
    simp only [value, this, Option.none_or]
    show ((rd ['1', '0']).bind fun x => (rd ['1', '0']).map fun y => x + y) = some 20
    rw [hrd]
    simp only [Option.bind_some, Option.map_some]
    norm_num

theorem resettable' (bloat : String → List String → Tube ℚ) (parts : Nat) (asserts : List (Assertion Sn)) (paths : List (Path Sn Unit ℚ String Unit))
    (hp : ∀ p ∈ paths, (∃ lo hi e, (e = .atom ['1', '0'] ∨ e = .add (.atom ['1', '0']) (.atom ['1', '0'])) ∧ p = path "x" lo hi (.arith e)) ∨
      ∃ lo hi v, p = path "agent_mode" lo hi (.const v))
    (tr : Trace ℚ) : Resettable (pworld bloat parts).toWorld (body asserts paths) tr := by
  intro a dl p sd0 i sd g C hc hm _ _ _ hC
  obtain ⟨rfl, rfl⟩ := controlled hc
  have hrd : rd ['1', '0'] = some 10 := by decide +kernel
  rcases hp p hm with ⟨lo, hi, e, he, rfl⟩ | ⟨lo, hi, v, rfl⟩
  · cases hC
    refine ⟨fun e' he' _ => ?_, fun h => ?_⟩
    · cases he'
      rcases he with rfl | rfl
      · refine ⟨⟨by simp, by simp, by simp, by simp⟩, trivial, fun vars hv => ⟨⟨10, ?_⟩, by simp⟩⟩
        have : vars ['1', '0'] = none := hv ['1', '0']
        simp only [value, this, Option.none_or]
        exact hrd
      · refine ⟨⟨by simp, by simp, by simp, by simp⟩, ⟨trivial, trivial⟩, fun vars hv => ⟨⟨20, ?_⟩, by simp⟩⟩
        have : vars ['1', '0'] = none := hv ['1', '0']
        simp only [value, this, Option.none_or]
        show ((rd ['1', '0']).bind fun x => (rd ['1', '0']).map fun y => x + y) = some 20
        rw [hrd]
        simp only [Option.bind_some, Option.map_some]
        norm_num
    · simp only [path, logic, List.mem_singleton] at h
      exact absurd h (by decide)
  · exact ⟨fun e he => (by cases he), fun _ => ⟨fun e he => (by cases he), fun v he => (by cases he)⟩⟩

theorem of_pview {w : PWorld Sn ℚ String} {n : Engine.Work (Body Sn Unit ℚ String Unit) (Trace ℚ)} {t : ℚ} {v : View}
    (h : (verifyPart w n t).map view = .ok v) : ∃ res, verifyPart w n t = .ok res ∧ res.hits = v.hits ∧ res.trace = v.tubes ∧
      ∀ c ∈ res.next, (⟨c.start, c.body.mode, c.body.init, c.trace⟩ : ChildView) ∈ v.next := by
  obtain ⟨res, h1, rfl⟩ := (map_ok_iff _ _ _).1 h
  exact ⟨res, h1, rfl, rfl, fun c hc => List.mem_map_of_mem (f := fun c => (⟨c.start, c.body.mode, c.body.init, c.trace⟩ : ChildView)) hc⟩

theorem pok_run : (verifyPart (pworld okBloat 2) (node (body [] okPaths)) 3).map view =
    .ok ⟨none, [⟨1, [("a", ["B"]), ("b", ["A"])], [("a", [([10], [10]), ([10], [10])]), ("b", [([5], [6])])],
      [("b", [seg 1 5 6, seg 2 5 6])]⟩], okFull⟩ := by
  decide +kernel

def laterPaths : List (Path Sn Unit ℚ String Unit) := [path "agent_mode" (1/2) 100 (.const "B")]
def laterTube : Tube ℚ := [seg 0 0 1, seg 1 1 2]
def laterBloat : String → List String → Tube ℚ := fun a _ => if a = "a" then laterTube else tubeB 2
def laterFull : Trace ℚ := [("a", laterTube), ("b", tubeB 2)]
def laterSnap : Snap ℚ String := [("a", [2], ["A"], []), ("b", [5], ["A"], [])]

theorem later_run : (verifyPart (pworld laterBloat 2) (node (body [] laterPaths)) 2).map view =
    .ok ⟨none, [⟨0, [("a", ["B"]), ("b", ["A"])], [("a", [([0], [1/2]), ([1/2], [1])]), ("b", [([5], [6])])], [("b", tubeB 2)]⟩], laterFull⟩ := by
  decide +kernel

def otherPaths : List (Path Sn Unit ℚ String Unit) :=
  [path "agent_mode" 0 100 (.const "B"), path "x" 0 (1/2) (.arith (.atom ['1', '0'])),
    path "x" (1/2) 1 (.arith (.add (.atom ['1', '0']) (.atom ['1', '0'])))]
def otherTube : Tube ℚ := [seg 0 0 1]
def otherBloat : String → List String → Tube ℚ := fun a _ => if a = "a" then otherTube else tubeB 1
def otherFull : Trace ℚ := [("a", otherTube), ("b", tubeB 1)]
def otherSnap : Snap ℚ String := [("a", [1], ["A"], []), ("b", [5], ["A"], [])]

theorem other_run : (verifyPart (pworld otherBloat 1) (node (body [] otherPaths)) 1).map view =
    .ok ⟨none, [⟨0, [("a", ["B"]), ("b", ["A"])], [("a", [([10], [10])]), ("b", [([5], [6])])], [("b", tubeB 1)]⟩], otherFull⟩ := by
  decide +kernel

end VerEx

open VerEx

/-- The hypotheses of `C31_switch_covered_partial` are met at step 1 of this run, where the rectangle is cut in two. -/
example : (∃ res, verifyPart (pworld okBloat 2) (node (body [] okPaths)) 3 = .ok res ∧ res.hits = none) ∧ Body.WF (body [] okPaths) ∧
    fillParts (pworld okBloat 2) (body [] okPaths) 0 3 [] = .ok okFull ∧
    Faithful meaning (world okBloat open_) (body [] okPaths) okFull ∧ Resettable (pworld okBloat 2).toWorld (body [] okPaths) okFull ∧
    PartFaithful meaning (pworld okBloat 2) (body [] okPaths) okFull ∧
    HasStep okFull 1 ∧ Reached (world okBloat open_) (body [] okPaths) okFull 1 ∧ InTube (body [] okPaths) okFull 1 okSnap ∧
    CanSwitch meaning (world okBloat open_) (body [] okPaths) okSnap "a" (logic [] okPaths) ["B"] [10] ∧
    NoExtraHit meaning (world okBloat open_) (body [] okPaths) okFull 1 "a" (logic [] okPaths) okSnap ∧
    (∀ j p, j < 1 → ¬ HitAt (world okBloat open_) (body [] okPaths) okFull j "a" p) ∧
    OnePath (world okBloat open_) (body [] okPaths) okFull 1 "a" (logic [] okPaths) ∧ DimsOk (pworld okBloat 2).dims (logic [] okPaths).cont.length := by
  have hmem : ∀ p ∈ okPaths, p = path "agent_mode" 1 100 (.const "B") ∨ p = path "x" 1 100 (.arith (.atom ['1', '0'])) := by
    intro p hp
    simpa only [okPaths, List.mem_cons, List.not_mem_nil, or_false] using hp
  have hint : Intervals okPaths := by
    intro p hp
    rcases hmem p hp with rfl | rfl
    · exact ⟨_, _, _, _, rfl⟩
    · exact ⟨_, _, _, _, rfl⟩
  have hold : ∀ p ∈ okPaths, meaning.holds p "a" okSnap := by
    intro p hp
    rcases hmem p hp with rfl | rfl
    · show inInterval 1 100 (point "a" okSnap) = _
      decide +kernel
    · show inInterval 1 100 (point "a" okSnap) = _
      decide +kernel
  have hno : ∀ a p r, Asked (world okBloat open_) (body [] okPaths) okFull 0 a p r → r = (false, false) := by
    intro a p r h
    obtain ⟨rfl, hp, hr⟩ := asked (sa := seg 0 0 (1/2)) (sb := seg 0 5 6) hint (by decide +kernel) (by decide +kernel) h
    have : p.check () (seg 0 0 (1/2)).box = .ok (false, false) := by
      rcases hmem p hp with rfl | rfl
      · show inInterval 1 100 (seg 0 0 (1/2)).box = _
        decide +kernel
      · show inInterval 1 100 (seg 0 0 (1/2)).box = _
        decide +kernel
    rw [this] at hr
    cases hr
    rfl
  refine ⟨?_, wf _ _, by decide +kernel, faithful _ _ _ _ hint _, resettable' _ _ _ _ ?_ _, partFaithful _ _ _ _ ?_ _,
    hasStep _ _ _ (by decide +kernel) (by decide +kernel),
    ⟨fun j a p hj hc => ?_, fun j k a p hj hk => by omega⟩,
    inTube _ _ _ _ _ (seg 1 (1/2) (3/2)) (seg 1 5 6) (by decide +kernel) (by decide +kernel) _ _ (inside1 _ _ _ (by norm_num) (by norm_num))
      (inside1 _ _ _ (by norm_num) (by norm_num)),
    canSwitch_both _ _ _ _ _ 1 100 1 100 10 "B" (.atom ['1', '0']) (by simp [okPaths]) (by simp [okPaths]) (by norm_num) (by norm_num)
      (by decide +kernel) ?_, fun p hp _ => ⟨p, hp, rfl, hold p hp⟩, fun j p hj hc => ?_, fun p hp q hq hv _ _ => ?_, fun ds hds => (by cases hds)⟩
  · obtain ⟨res, h1, h2, _⟩ := of_pview pok_run
    exact ⟨res, h1, h2⟩
  · intro p hp
    rcases hmem p hp with rfl | rfl
    · exact .inr ⟨_, _, _, rfl⟩
    · exact .inl ⟨_, _, _, .inl rfl, rfl⟩
  · intro p hp e he
    rcases hmem p hp with rfl | rfl
    · cases he
    · cases he; exact .inl rfl
  · have : j = 0 := by omega
    subst this
    obtain ⟨h, hc⟩ := hc
    have := hno a p _ hc
    cases this
  · intro p hp
    rcases hmem p hp with rfl | rfl
    · exact .inl rfl
    · exact .inr rfl
  · have : j = 0 := by omega
    subst this
    obtain ⟨h, hc⟩ := hc
    have := hno "a" p _ hc
    cases this
  · rcases hmem p hp with rfl | rfl <;> rcases hmem q hq with rfl | rfl
    · rfl
    · exact absurd hv (by decide)
    · exact absurd hv (by decide)
    · rfl

/-- **C31** fails for later steps: the guard `x ≥ 1/2` may be satisfied in step 0 and in step 1, but only the rectangle of step 0 is cut and
becomes the initial set of the child. The switch at `x = 2` is not covered. -/
theorem C31_later_step_violated : ∃ res, verifyPart (pworld laterBloat 2) (node (body [] laterPaths)) 2 = .ok res ∧ res.hits = none ∧
    Body.WF (body [] laterPaths) ∧ fillParts (pworld laterBloat 2) (body [] laterPaths) 0 2 [] = .ok laterFull ∧
    Faithful meaning (world laterBloat open_) (body [] laterPaths) laterFull ∧ Resettable (pworld laterBloat 2).toWorld (body [] laterPaths) laterFull ∧
    PartFaithful meaning (pworld laterBloat 2) (body [] laterPaths) laterFull ∧
    HasStep laterFull 1 ∧ Reached (world laterBloat open_) (body [] laterPaths) laterFull 1 ∧
    InTube (body [] laterPaths) laterFull 1 laterSnap ∧
    CanSwitch meaning (world laterBloat open_) (body [] laterPaths) laterSnap "a" (logic [] laterPaths) ["B"] [2] ∧
    NoExtraHit meaning (world laterBloat open_) (body [] laterPaths) laterFull 1 "a" (logic [] laterPaths) laterSnap ∧
    OnePath (world laterBloat open_) (body [] laterPaths) laterFull 1 "a" (logic [] laterPaths) ∧
    ¬ ∃ c ∈ res.next, Covers (body [] laterPaths) laterFull 1 "a" ["B"] [2] c := by
  have hmem : ∀ p ∈ laterPaths, p = path "agent_mode" (1/2) 100 (.const "B") := by
    intro p hp
    simpa only [laterPaths, List.mem_singleton] using hp
  have hint : Intervals laterPaths := fun p hp => ⟨_, _, _, _, hmem p hp⟩
  obtain ⟨res, h1, h2, _, h3⟩ := of_pview later_run
  refine ⟨res, h1, h2, wf _ _, by decide +kernel, faithful _ _ _ _ hint _, resettable' _ _ _ _ (fun p hp => .inr ⟨_, _, _, hmem p hp⟩) _,
    partFaithful _ _ _ _ ?_ _, hasStep _ _ _ (by decide +kernel) (by decide +kernel),
    ⟨fun j a p hj hc => ?_, fun j k a p hj hk => by omega⟩,
    inTube _ _ _ _ _ (seg 1 1 2) (seg 1 5 6) (by decide +kernel) (by decide +kernel) _ _ (inside1 _ _ _ (by norm_num) (by norm_num))
      (inside1 _ _ _ (by norm_num) (by norm_num)),
    canSwitch_mode _ _ _ _ _ (1/2) 100 "B" (by simp [laterPaths]) (by norm_num) (fun p hp _ => by rw [hmem p hp]; rfl),
    fun p hp _ => ⟨p, hp, rfl, ?_⟩, fun p hp q hq _ _ _ => by rw [hmem p hp, hmem q hq], ?_⟩
  · intro p hp e he
    rw [hmem p hp] at he
    cases he
  · have : j = 0 := by omega
    subst this
    obtain ⟨h, hc⟩ := hc
    obtain ⟨rfl, hp, hr⟩ := asked (sa := seg 0 0 1) (sb := seg 0 5 6) hint (by decide +kernel) (by decide +kernel) hc
    rw [hmem p hp] at hr
    have : inInterval (1/2) 100 (seg 0 0 1).box = .ok (true, false) := by decide +kernel
    have hr' : inInterval (1/2) 100 (seg 0 0 1).box = .ok (h, true) := hr
    rw [this] at hr'
    cases hr'
  · have hp' := hmem p hp
    subst hp'
    show inInterval (1/2) 100 (point "a" laterSnap) = _
    decide +kernel
  · rintro ⟨c, hc, _, _, _, ⟨rs, g1, r, g2, g3⟩, _⟩
    have := h3 c hc
    simp only [List.mem_singleton] at this
    injection this with _ _ e _
    rw [e] at g1
    simp only [Dict.get?_cons, if_true, Option.some.injEq] at g1
    subst g1
    simp only [List.mem_cons, List.not_mem_nil, or_false] at g2
    obtain ⟨_, g⟩ := g3
    rcases g2 with rfl | rfl
    · cases g with
      | cons g _ => norm_num at g
    · cases g with
      | cons g _ => norm_num at g

/-- **C31** fails for a second path to the same mode: where `x ≤ 1/2` the controller sets `x` to 10, where `x ≥ 1/2` to 20, and the new mode is
the same. Only the first reset is applied to the parts. The switch at `x = 1` is not covered. -/
theorem C31_other_path_violated : ∃ res, verifyPart (pworld otherBloat 1) (node (body [] otherPaths)) 1 = .ok res ∧ res.hits = none ∧
    Body.WF (body [] otherPaths) ∧ fillParts (pworld otherBloat 1) (body [] otherPaths) 0 1 [] = .ok otherFull ∧
    Faithful meaning (world otherBloat open_) (body [] otherPaths) otherFull ∧ Resettable (pworld otherBloat 1).toWorld (body [] otherPaths) otherFull ∧
    PartFaithful meaning (pworld otherBloat 1) (body [] otherPaths) otherFull ∧
    HasStep otherFull 0 ∧ Reached (world otherBloat open_) (body [] otherPaths) otherFull 0 ∧
    InTube (body [] otherPaths) otherFull 0 otherSnap ∧
    CanSwitch meaning (world otherBloat open_) (body [] otherPaths) otherSnap "a" (logic [] otherPaths) ["B"] [20] ∧
    NoExtraHit meaning (world otherBloat open_) (body [] otherPaths) otherFull 0 "a" (logic [] otherPaths) otherSnap ∧
    ¬ ∃ c ∈ res.next, Covers (body [] otherPaths) otherFull 0 "a" ["B"] [20] c := by
  have hmem : ∀ p ∈ otherPaths, p = path "agent_mode" 0 100 (.const "B") ∨ p = path "x" 0 (1/2) (.arith (.atom ['1', '0'])) ∨
      p = path "x" (1/2) 1 (.arith (.add (.atom ['1', '0']) (.atom ['1', '0']))) := by
    intro p hp
    simpa only [otherPaths, List.mem_cons, List.not_mem_nil, or_false] using hp
  have hint : Intervals otherPaths := by
    intro p hp
    rcases hmem p hp with rfl | rfl | rfl <;> exact ⟨_, _, _, _, rfl⟩
  obtain ⟨res, h1, h2, _, h3⟩ := of_pview other_run
  refine ⟨res, h1, h2, wf _ _, by decide +kernel, faithful _ _ _ _ hint _, resettable' _ _ _ _ ?_ _,
    partFaithful _ _ _ _ ?_ _, hasStep _ _ _ (by decide +kernel) (by decide +kernel),
    ⟨by intro j _ _ hj; omega, by intro j k _ _ hj hk; omega⟩,
    inTube _ _ _ _ _ (seg 0 0 1) (seg 0 5 6) (by decide +kernel) (by decide +kernel) _ _ (inside1 _ _ _ (by norm_num) (by norm_num))
      (inside1 _ _ _ (by norm_num) (by norm_num)),
    canSwitch_both _ _ _ _ _ 0 100 (1/2) 1 20 "B" (.add (.atom ['1', '0']) (.atom ['1', '0'])) (by simp [otherPaths]) (by simp [otherPaths])
      (by norm_num) (by norm_num) (by decide +kernel) ?_, fun p hp _ => ?_, ?_⟩
  · intro p hp
    rcases hmem p hp with rfl | rfl | rfl
    · exact .inr ⟨_, _, _, rfl⟩
    · exact .inl ⟨_, _, _, .inl rfl, rfl⟩
    · exact .inl ⟨_, _, _, .inr rfl, rfl⟩
  · intro p hp e he
    rcases hmem p hp with rfl | rfl | rfl
    · cases he
    · cases he; exact .inl rfl
    · cases he; exact .inr rfl
  · intro p hp
    rcases hmem p hp with rfl | rfl | rfl
    · exact .inl rfl
    · exact .inr rfl
    · exact .inr rfl
  · have k1 : meaning.holds (path "agent_mode" 0 100 (.const "B")) "a" otherSnap := by
      show inInterval 0 100 (point "a" otherSnap) = _
      decide +kernel
    have k2 : meaning.holds (path "x" (1/2) 1 (.arith (.add (.atom ['1', '0']) (.atom ['1', '0'])))) "a" otherSnap := by
      show inInterval (1/2) 1 (point "a" otherSnap) = _
      decide +kernel
    rcases hmem p hp with rfl | rfl | rfl
    · exact ⟨_, hp, rfl, k1⟩
    · exact ⟨path "x" (1/2) 1 (.arith (.add (.atom ['1', '0']) (.atom ['1', '0']))), by simp [logic, otherPaths], rfl, k2⟩
    · exact ⟨_, hp, rfl, k2⟩
  · rintro ⟨c, hc, _, _, _, ⟨rs, g1, r, g2, g3⟩, _⟩
    have := h3 c hc
    simp only [List.mem_singleton] at this
    injection this with _ _ e _
    rw [e] at g1
    simp only [Dict.get?_cons, if_true, Option.some.injEq] at g1
    subst g1
    simp only [List.mem_singleton] at g2
    subst g2
    obtain ⟨_, g⟩ := g3
    cases g with
    | cons g _ => norm_num at g

end Verif.Props
