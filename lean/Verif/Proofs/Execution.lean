import Verif.Spec.Execution
import Verif.Proofs.Verifier3
import Verif.Proofs.FullTube
import Verif.Props.Reset
import Verif.Props.Verifier

/-! How a node continues an execution. -/

set_option autoImplicit false
set_option linter.unusedSectionVars false

namespace Verif.Proofs.Ver

open Verif.Ver Verif.Ver.Spec Verif.Rect.Spec Verif.Rst.Spec Verif.Props

variable {S G K V D : Type} [Field K] [LinearOrder K] [DecidableEq V]

/-- Resets do not change the number of coordinates. -/
theorem applyReset_dim {sh : K → Rst.Text} {rd : Rst.Text → Option K} {contVars discVars : List String} {mode : List V} {rect rect' : Rect.Box K}
    {items : List (Rst.Item K V D)} {dests : List (List V)} {n : Nat} (h : Rst.applyReset sh rd contVars discVars mode rect items = .ok (dests, rect'))
    (hd : Dim n rect) : Dim n rect' := by
  unfold Rst.applyReset at h
  obtain ⟨r, hr, e⟩ := (map_ok_iff _ _ _).1 h
  simp only [Prod.mk.injEq] at e
  rw [← e.2]
  refine foldlM_inv (P := fun (r : List (List V) × Rect.Box K) => Dim n r.2) hr hd ?_
  intro acc acc' it _ ih hstep
  unfold Rst.applyOne at hstep
  split at hstep
  · split at hstep
    · cases hstep
    · split at hstep
      · cases hstep
      · injection hstep with hstep; subst hstep; exact ih
  · split at hstep
    · cases hstep
    · split at hstep
      · obtain ⟨q, _, hstep⟩ := (bind_ok_iff _ _ _).1 hstep
        split at hstep
        · injection hstep with hstep; subst hstep
          exact ⟨by simp only [List.length_set]; exact ih.1, by simp only [List.length_set]; exact ih.2⟩
        · cases hstep
      · cases hstep

/-- What an entry of `reset_dict` is. -/
def Justified (w : World S K V) (b : Body S G K V D) (full : Trace K) (e : Event S G K V D) : Prop :=
  ∃ dl sel segs m seg dests, Controlled b e.agent dl ∧ Selects w b full e.idx e.agent dl sel ∧ Combo w b full e.idx e.agent sel e.combo ∧
    Dict.get? full e.agent = some segs ∧ Dict.get? b.mode e.agent = some m ∧ segs[e.idx]? = some seg ∧
    Rst.applyReset w.sh w.rd dl.cont dl.disc m seg.box (e.combo.map Hit.item) = .ok (dests, e.rect) ∧
    (e.dest = none ∧ dests = [] ∨ ∃ d ∈ dests, e.dest = some d)

theorem found_spec {w : World S K V} {b : Body S G K V D} {full : Trace K} {ts : List (Trans S G K V D)} (wf : Body.WF b)
    (hfound : getTransitions w b full = .ok (.trans ts)) :
    ∃ evs, permitted w b (grouped evs) = .ok ts ∧ evs.Pairwise (fun x y => x.idx ≤ y.idx) ∧ (∀ y ∈ evs, Justified w b full y) ∧
      ∀ i, HasStep full i → Reached w b full i →
        (∀ a dl p, Controlled b a dl → p ∈ dl.paths → (∃ sd0, Boxes b full 0 sd0 ∧ p.prep (w.sense a sd0) = .ok none) ∨ ∃ r, Asked w b full i a p r) ∧
        ∀ a dl sel, Controlled b a dl → Selects w b full i a dl sel → ∃ combo segs m seg dests rect, Combo w b full i a sel combo ∧
          Dict.get? full a = some segs ∧ Dict.get? b.mode a = some m ∧ segs[i]? = some seg ∧
          Rst.applyReset w.sh w.rd dl.cont dl.disc m seg.box (combo.map Hit.item) = .ok (dests, rect) ∧
          (∀ d ∈ dests, (⟨a, some d, rect, i, combo⟩ : Event S G K V D) ∈ evs) ∧
          (dests = [] → (⟨a, none, rect, i, combo⟩ : Event S G K V D) ∈ evs) := by
  unfold getTransitions at hfound
  obtain ⟨prep, hprep, hfound⟩ := (bind_ok_iff _ _ _).1 hfound
  obtain ⟨N, hN, hfound⟩ := (bind_ok_iff _ _ _).1 hfound
  obtain ⟨sc, hsc, hfound⟩ := (bind_ok_iff _ _ _).1 hfound
  cases sc with
  | asserts d idx => cases hfound
  | hits l =>
    dsimp only at hfound
    obtain ⟨evs, hevs, hfound⟩ := (bind_ok_iff _ _ _).1 hfound
    obtain ⟨ts', hts, hts'⟩ := (map_ok_iff _ _ _).1 hfound
    cases hts'
    obtain ⟨l', hl', hsorted, hlspec⟩ := scan_hits _ _ _ _ hsc
    simp only [List.nil_append] at hl'
    subst hl'
    obtain ⟨hev1, -⟩ := events_sorted hevs hsorted
    refine ⟨evs, hts, hev1, ?_, ?_⟩
    · intro y hy
      obtain ⟨s, dl, segs, m, seg, dests, q1, q2, q3, q4, q5, q6, q7, q8⟩ := events_sound hevs y hy
      obtain ⟨_, _, r1, _⟩ := hlspec _ q1
      obtain ⟨dl', sel, z1, z2, z3⟩ := checkSample_sound wf.names hprep r1 _ _ q2
      have e := Dict.get?_of_mem wf.names z1.1
      rw [q3] at e
      cases e
      exact ⟨dl, sel, segs, m, seg, dests, z1, z2, z3, q4, q5, q6, q7, q8⟩
    · intro i hstep hreach
      rcases scan_reaches wf.names hprep _ _ _ _ hsc i (Nat.zero_le _) (by rw [Nat.zero_add]; exact (traceLength_spec _ _ hN i).2 hstep)
        (fun j a p _ hj => hreach.1 j a p hj)
        (fun k _ hk hh => by
          rcases hh with hh | ⟨j, a, p, _, hj, hh⟩
          · exact absurd rfl hh
          · exact hreach.2 j k a p hj hk hh) with ⟨_, _, _, _, _, _, e⟩ | ⟨s, hs, has, hmem⟩
      · cases e
      have hsp := checkSample_spec wf.names hprep hs
      refine ⟨fun a dl p hc hp => hsp.asked has a dl p (mem_controlled.2 hc) hp, ?_⟩
      intro a dl sel hctl hsel
      obtain ⟨combo, hc1, hc2⟩ := hsp.hits has a dl (mem_controlled.2 hctl) sel hsel
      obtain ⟨es, he1, he2⟩ := mem_events hevs s i (hmem (List.ne_nil_of_mem hc1) _ rfl) _ hc1
      unfold eventsOf at he1
      rw [Dict.get?_of_mem wf.names hctl.1] at he1
      dsimp only at he1
      split at he1
      · rename_i dl0 segs m e0 e1 e2
        cases e0
        split at he1
        · rename_i seg e3
          obtain ⟨⟨dests, rect⟩, hreset, rfl⟩ := (map_ok_iff _ _ _).1 he1
          refine ⟨combo, segs, m, seg, dests, rect, hc2, e1, e2, e3, hreset, ?_, ?_⟩
          · intro d hd
            apply he2
            rw [List.mem_map]
            refine ⟨some d, ?_, rfl⟩
            rw [if_neg]
            · exact List.mem_map_of_mem hd
            · intro e
              have e' : dests = [] := List.isEmpty_iff.1 e
              rw [e'] at hd
              cases hd
          · intro hd
            apply he2
            rw [List.mem_map]
            exact ⟨none, by rw [if_pos (List.isEmpty_iff.2 hd)]; simp, rfl⟩
        · cases he1
      · cases he1

/-- The rectangle of an entry contains the state after the reset, and its mode is among the destinations. -/
theorem combo_post {w : World S K V} {b : Body S G K V D} {full : Trace K} (wf : Body.WF b) {M : Meaning S G K V D} (hM : Faithful M w b full)
    (hR : Resettable w b full) {i : Nat} {snap : Snap K V} {sd : StateDict K V} {a : String} {dl : Logic S G K V D} (hsd : Boxes b full i sd)
    (hin : Within snap sd) (hctl : Controlled b a dl) {state : List K} {mode dest : List V} {post : List K} {seg : Seg K}
    (hlen1 : state.length = dl.cont.length) (hlen2 : mode.length = dl.disc.length) (y2 : Inside state seg.box)
    {choice : String → Option (Path S G K V D)}
    (c1 : ∀ v p, choice v = some p → p ∈ dl.paths ∧ p.var = v ∧ M.holds p a snap) (c4 : mode.length = dest.length)
    (c5 : state.length = post.length)
    (c6 : ∀ (i : Nat) (v : String) (y : V), dl.disc[i]? = some v → dest[i]? = some y → match choice v with
      | some p => NewMode (M.disc p a snap) p.val y
      | none => mode[i]? = some y)
    (c7 : ∀ (i : Nat) (v : String), dl.cont[i]? = some v → match choice v with
      | some p => ∃ e, p.val = .arith e ∧ ∃ x, post[i]? = some x ∧ value w.rd (M.vars p a snap) e = some x
      | none => post[i]? = state[i]?)
    {combo : List (Hit S G K V D)} (hcombo : Combo w b full i a choice combo) {dests : List (List V)} {rect : Rect.Box K}
    (hreset : Rst.applyReset w.sh w.rd dl.cont dl.disc mode seg.box (combo.map Hit.item) = .ok (dests, rect)) :
    dest ∈ dests ∧ Inside post rect := by
  obtain ⟨hc2, hc3, hc4⟩ := hcombo
  have hlwf := wf.logics _ hctl.1
  have hitem : ∀ it ∈ combo.map Hit.item, ∃ h ∈ combo, it = h.item ∧ it.var = h.path.var ∧ it.val = h.path.val ∧ choice it.var = some h.path ∧
      it.disc = M.disc h.path a snap ∧ h.path ∈ dl.paths ∧ InRange it.cont (M.vars h.path a snap) ∧
      ((∀ e, it.val = .arith e → it.var ∈ dl.cont → Readable w.sh w.rd it.cont e ∧ NoVarPow it.cont e ∧ Between w.rd it.cont e) ∧
        (it.var ∈ dl.disc → (∀ e, it.val ≠ .arith e) ∧ ∀ v, it.val ≠ .member false v)) := by
    intro it hit
    obtain ⟨h, hh, rfl⟩ := List.mem_map.1 hit
    obtain ⟨q1, sd0, sd', g, C, q2, q3, q4, q5, q6⟩ := hc3 h hh
    obtain ⟨p1, p2, p3⟩ := c1 _ _ q1
    refine ⟨h, hh, rfl, by rw [q6], by rw [q6], by rw [q6]; exact q1, ?_, p1, ?_, ?_⟩
    · rw [q6]
      exact hM.disc a dl h.path sd0 i snap hctl p1 q2 ⟨sd, hsd, hin⟩
    · rw [q6]
      have e := boxes_det q3 hsd
      subst e
      exact hM.range a dl h.path sd0 i sd' g C snap hctl p1 q2 q3 q4 q5 hin
    · rw [q6]
      exact hR a dl h.path sd0 i sd' g C hctl p1 q2 q3 q4 q5
  have hvars : ((combo.map Hit.item).map Rst.Item.var).Nodup := by
    have : (combo.map Hit.item).map Rst.Item.var = combo.map (fun h => h.path.var) := by
      rw [List.map_map]
      apply List.map_congr_left
      intro h hh
      obtain ⟨_, sd0, sd', g, C, _, _, _, _, q6⟩ := hc3 h hh
      simp only [Function.comp]
      rw [q6]
    rw [this]; exact hc2
  have hnone : ∀ v, (∀ it ∈ combo.map Hit.item, it.var ≠ v) → choice v = none := by
    intro v hv
    cases hcv : choice v with
    | none => rfl
    | some p =>
      obtain ⟨h, hh, rfl⟩ := hc4 v p hcv
      obtain ⟨_, sd0, sd', g, C, _, _, _, _, q6⟩ := hc3 h hh
      refine absurd ?_ (hv h.item (List.mem_map_of_mem hh))
      rw [q6]
      exact (c1 _ _ hcv).2.1
  constructor
  · refine (C26_destinations_partial _ _ _ _ _ _ _ _ _ hreset hlwf.discNodup hlwf.discMode hvars ?_ hlen2 dest).2 ⟨c4, ?_⟩
    · intro it hit hv
      obtain ⟨h, _, _, _, _, _, _, _, _, hres⟩ := hitem it hit
      exact hres.2 hv
    · intro j v z hv hz
      have := c6 j v z hv hz
      refine ⟨fun it hit hit2 => ?_, fun hno => ?_⟩
      · obtain ⟨h, hh, q1, q2, q3, q4, q5, _⟩ := hitem it hit
        rw [hit2] at q4
        rw [q4] at this
        rw [q5, q3]
        exact this
      · rw [hnone v hno] at this
        exact this
  · refine C26_reset_rectangle_partial _ _ _ _ _ _ _ _ _ hreset hlwf.contNodup hlwf.contMode hvars ?_ state post
      (fun it => match choice it.var with | some p => M.vars p a snap | none => fun _ => none) ?_ hlen1 y2 ⟨c5, ?_⟩
    · intro it hit e hval hv
      obtain ⟨h, _, _, _, _, _, _, _, _, hres⟩ := hitem it hit
      exact hres.1 e hval hv
    · intro it hit
      obtain ⟨h, _, _, _, _, q4, _, _, q7, _⟩ := hitem it hit
      simp only [q4]
      exact q7
    · intro j v hv
      have := c7 j v hv
      refine ⟨fun it hit hit2 => ?_, fun hno => ?_⟩
      · obtain ⟨h, hh, q1, q2, q3, q4, q5, _⟩ := hitem it hit
        simp only [q4]
        rw [hit2] at q4
        rw [q4] at this
        rw [q3]
        exact this
      · rw [hnone v hno] at this
        exact this

/-- The destinations of an entry are possible for its choice. -/
theorem combo_possible {w : World S K V} {b : Body S G K V D} {full : Trace K} (wf : Body.WF b) (hR : Resettable w b full) {i : Nat} {a : String}
    {dl : Logic S G K V D} (hctl : Controlled b a dl) {mode : List V} {bx : Rect.Box K} (hlen2 : mode.length = dl.disc.length)
    {sel : String → Option (Path S G K V D)} (hsel : Selects w b full i a dl sel)
    {combo : List (Hit S G K V D)} (hcombo : Combo w b full i a sel combo) {dests : List (List V)} {rect : Rect.Box K}
    (hreset : Rst.applyReset w.sh w.rd dl.cont dl.disc mode bx (combo.map Hit.item) = .ok (dests, rect)) :
    ∀ dest ∈ dests, Possible w b full a dl sel mode dest := by
  intro dest hd
  obtain ⟨hc2, hc3, hc4⟩ := hcombo
  have hlwf := wf.logics _ hctl.1
  have hvars : ((combo.map Hit.item).map Rst.Item.var).Nodup := by
    have : (combo.map Hit.item).map Rst.Item.var = combo.map (fun h => h.path.var) := by
      rw [List.map_map]
      apply List.map_congr_left
      intro h hh
      obtain ⟨_, sd0, sd', g, C, _, _, _, _, q6⟩ := hc3 h hh
      simp only [Function.comp]
      rw [q6]
    rw [this]; exact hc2
  have hafter := (C26_destinations_partial _ _ _ _ _ _ _ _ _ hreset hlwf.discNodup hlwf.discMode hvars (by
    intro it hit hv
    obtain ⟨h, hh, rfl⟩ := List.mem_map.1 hit
    obtain ⟨q1, sd0, sd', g, C, q2, q3, q4, q5, q6⟩ := hc3 h hh
    have := (hR a dl h.path sd0 i sd' g C hctl (hsel.1 _ _ q1).1 q2 q3 q4 q5).2
    rw [q6] at hv ⊢
    exact this hv) hlen2 dest).1 hd
  refine ⟨hafter.1.symm, fun k v z hk hz => ?_⟩
  obtain ⟨a1, a2⟩ := hafter.2 k v z hk hz
  cases hsv : sel v with
  | none =>
    refine a2 ?_
    rintro it hit rfl
    obtain ⟨h, hh, rfl⟩ := List.mem_map.1 hit
    obtain ⟨q1, sd0, sd', g, C, q2, q3, q4, q5, q6⟩ := hc3 h hh
    rw [q6] at hsv
    rw [hsv] at q1; cases q1
  | some p =>
    obtain ⟨h, hh, rfl⟩ := hc4 v p hsv
    obtain ⟨q1, sd0, sd', g, C, q2, q3, q4, q5, q6⟩ := hc3 h hh
    have hv : h.item.var = v := by
      rw [q6]
      exact (hsel.1 _ _ hsv).2.1
    have := a1 h.item (List.mem_map_of_mem hh) hv
    rw [q6] at this
    exact ⟨sd0, q2, this⟩

/-- An entry is found at the same position in the rectangles and the indices of its transition. -/
theorem mem_grouped_at (evs : List (Event S G K V D)) (hs : evs.Pairwise (fun x y => x.idx ≤ y.idx)) (e : Event S G K V D)
    (he : e ∈ evs) : ∃ t ∈ grouped evs, t.agent = e.agent ∧ t.dest = e.dest ∧
      (∃ k : Nat, t.inits[k]? = some e.rect ∧ t.idxs[k]? = some e.idx) ∧ t.idxs.Pairwise (· ≤ ·) := by
  unfold grouped
  let A := evs.filter (fun x => decide (x.agent = e.agent))
  have hA : e ∈ A := List.mem_filter.2 ⟨he, by simp⟩
  let B := A.filter (fun x => decide (x.combo.length = e.combo.length))
  have hB : e ∈ B := List.mem_filter.2 ⟨hA, by simp⟩
  let C := B.filter (fun x => decide (x.dest = e.dest))
  have hC : e ∈ C := List.mem_filter.2 ⟨hB, by simp⟩
  have m1 : (e.agent, A) ∈ group Event.agent evs := (mem_group _ _ _ _).2 ⟨rfl, List.ne_nil_of_mem hA⟩
  have m2 : (e.combo.length, B) ∈ group (fun (e : Event S G K V D) => e.combo.length) A := (mem_group _ _ _ _).2 ⟨rfl, List.ne_nil_of_mem hB⟩
  have m3 : (e.dest, C) ∈ group Event.dest B := (mem_group _ _ _ _).2 ⟨rfl, List.ne_nil_of_mem hC⟩
  refine ⟨_, List.mem_flatMap.2 ⟨_, m1, List.mem_flatMap.2 ⟨_, m2, List.mem_map.2 ⟨_, m3, rfl⟩⟩⟩, rfl, rfl, ?_, ?_⟩
  · obtain ⟨k, hk⟩ := List.getElem?_of_mem hC
    refine ⟨k, ?_, ?_⟩
    · simp only [List.getElem?_map, hk, Option.map_some]
    · simp only [List.getElem?_map, hk, Option.map_some]
  · have hsC : C.Pairwise (fun x y => x.idx ≤ y.idx) := ((hs.filter _).filter _).filter _
    exact List.pairwise_map.2 hsC

/-- Every transition comes from an entry. -/
theorem grouped_idx (evs : List (Event S G K V D)) (t : Trans S G K V D) (ht : t ∈ grouped evs) :
    (∃ e ∈ evs, t.idxs.head? = some e.idx) ∧ ∀ r ∈ t.inits, ∃ e ∈ evs, e.agent = t.agent ∧ e.rect = r := by
  obtain ⟨e, rest, k, h1, h2, h3, _⟩ := grouped_sound _ _ ht
  have hmem : ∀ x ∈ e :: rest, x ∈ evs ∧ x.agent = t.agent := by
    intro x hx
    rw [h1, List.mem_filter] at hx
    simp only [Bool.and_eq_true, decide_eq_true_eq] at hx
    exact ⟨hx.1, hx.2.1⟩
  refine ⟨⟨e, (hmem e (by simp)).1, by rw [h3]; rfl⟩, ?_⟩
  intro r hr
  rw [h2] at hr
  obtain ⟨x, hx, rfl⟩ := List.mem_map.1 hr
  exact ⟨x, (hmem x hx).1, (hmem x hx).2, rfl⟩

/-- A guard that may be satisfied at a step that is reached leads to a transition. -/
theorem hit_found {w : World S K V} {b : Body S G K V D} {full : Trace K} {ts : List (Trans S G K V D)} (wf : Body.WF b)
    (hfound : getTransitions w b full = .ok (.trans ts)) (hR : Resettable w b full)
    (hmodes : ∀ a dl src, Controlled b a dl → Dict.get? b.mode a = some src → src.length = dl.disc.length)
    (hper : ∀ i a dl sel src dest, Controlled b a dl → Selects w b full i a dl sel → Dict.get? b.mode a = some src →
      Possible w b full a dl sel src dest → MapPermits w dl src dest)
    {i : Nat} (hstep : HasStep full i) (hreach : Reached w b full i) {a : String} {p : Path S G K V D} (hit : HitAt w b full i a p) :
    ∃ t ∈ ts, i ∈ t.idxs ∧ t.idxs.Pairwise (· ≤ ·) := by
  classical
  obtain ⟨evs, hts, hsort, hjust, hall⟩ := found_spec wf hfound
  obtain ⟨-, hsel⟩ := hall i hstep hreach
  have hit' := hit
  obtain ⟨c, dl, sd0, sd, g, hctl, hp, _⟩ := hit
  let sel : String → Option (Path S G K V D) := fun v =>
    if h : ∃ q, q ∈ dl.paths ∧ q.var = v ∧ HitAt w b full i a q then some h.choose else none
  have hselects : Selects w b full i a dl sel := by
    refine ⟨fun v q hq => ?_, fun q hq hh => ?_, p.var, ?_⟩
    · by_cases h : ∃ q, q ∈ dl.paths ∧ q.var = v ∧ HitAt w b full i a q
      · simp only [sel, dif_pos h, Option.some.injEq] at hq
        rw [← hq]
        exact h.choose_spec
      · simp only [sel, dif_neg h] at hq
        cases hq
    · have h : ∃ q', q' ∈ dl.paths ∧ q'.var = q.var ∧ HitAt w b full i a q' := ⟨q, hq, rfl, hh⟩
      simp only [sel, dif_pos h, Option.isSome_some]
    · have h : ∃ q', q' ∈ dl.paths ∧ q'.var = p.var ∧ HitAt w b full i a q' := ⟨p, hp, rfl, hit'⟩
      simp only [sel, dif_pos h, Option.isSome_some]
  obtain ⟨combo, segs, m, seg, dests, rect, k1, k2, k3, k4, k5, k6, k7⟩ := hsel a dl sel hctl hselects
  have hget := Dict.get?_of_mem wf.names hctl.1
  cases hd : dests with
  | nil =>
    obtain ⟨t, ht, t1, t2, -⟩ := mem_grouped_at evs hsort _ (k7 hd)
    exfalso
    have hall : ∀ (l l' : List (Trans S G K V D)), t ∈ l → permitted w b l ≠ .ok l' := by
      intro l
      induction l with
      | nil => intro l' hm; cases hm
      | cons x l ih =>
        intro l' hm he
        unfold permitted at he
        split at he
        · obtain ⟨keep, hk, he⟩ := (bind_ok_iff _ _ _).1 he
          obtain ⟨l2, hl2, _⟩ := (map_ok_iff _ _ _).1 he
          rcases List.mem_cons.1 hm with rfl | hm
          · rw [t2] at hk
            cases hk
          · exact ih _ hm hl2
        · cases he
    exact hall _ _ ht hts
  | cons d ds =>
    have hd' : d ∈ dests := by rw [hd]; simp
    obtain ⟨t, ht, t1, t2, ⟨k, t3, t4⟩, t5⟩ := mem_grouped_at evs hsort _ (k6 d hd')
    refine ⟨t, ?_, List.mem_of_getElem? t4, t5⟩
    rw [mem_permitted _ _ hts]
    simp only at t1 t2
    refine ⟨ht, dl, m, by rw [t1]; exact hget, by rw [t1]; exact k3, ?_⟩
    rw [t2]
    have hposs := combo_possible wf hR hctl (hmodes a dl m hctl k3) hselects k1 k5 d hd'
    exact (mapAllows_iff w dl m d).2 (hper i a dl sel m d hctl hselects k3 hposs)

/-! ### tubes -/

theorem fillTubes_keys {w : World S K V} {b : Body S G K V D} {start remain : ℚ} {given full : Trace K}
    (h : fillTubes w b start remain given = .ok full) (hnd : (given.map Prod.fst).Nodup)
    (hsub : ∀ k ∈ given.map Prod.fst, k ∈ b.agents.map Prod.fst) :
    (full.map Prod.fst).Nodup ∧ ∀ k ∈ full.map Prod.fst, k ∈ b.agents.map Prod.fst := by
  unfold fillTubes at h
  refine foldlM_inv (P := fun (tr : Trace K) => (tr.map Prod.fst).Nodup ∧ ∀ k ∈ tr.map Prod.fst, k ∈ b.agents.map Prod.fst) h ⟨hnd, hsub⟩ ?_
  intro tr tr' a hmem ih hstep
  split at hstep
  · injection hstep with hstep; subst hstep; exact ih
  · split at hstep
    · obtain ⟨t0, _, rfl⟩ := (map_ok_iff _ _ _).1 hstep
      refine ⟨Dict.nodup_set ih.1 _ _, ?_⟩
      intro k hk
      rw [Dict.keys_set] at hk
      split at hk
      · exact ih.2 k hk
      · rcases List.mem_append.1 hk with hk | hk
        · exact ih.2 k hk
        · simp only [List.mem_singleton] at hk
          rw [hk]
          exact List.mem_map_of_mem hmem
    · cases hstep

theorem mkChild_more {w : World S K V} {b : Body S G K V D} (hn : (b.agents.map Prod.fst).Nodup) {full : Trace K} {t : Trans S G K V D}
    {dest : List V} {start : Nat} {c : Engine.Child (Body S G K V D) (Trace K)} (h : mkChild w b full t dest start = .ok c) :
    ((c.trace.map Prod.fst).Nodup ∧ ∀ k ∈ c.trace.map Prod.fst, k ∈ b.agents.map Prod.fst) ∧
    ∃ a ∈ b.agents, ∃ segs s, Dict.get? full a.1 = some segs ∧ segs[start]? = some s ∧ c.start = w.round10 s.t0 := by
  obtain ⟨trunc, h1, h⟩ := (bind_ok_iff _ _ _).1 h
  obtain ⟨t0, h2, h⟩ := (bind_ok_iff _ _ _).1 h
  obtain ⟨it, h3, rfl⟩ := (map_ok_iff _ _ _).1 h
  constructor
  · refine foldlM_inv (P := fun (r : Dict String (List (Rect.Box K)) × Trace K) => (r.2.map Prod.fst).Nodup ∧
      ∀ k ∈ r.2.map Prod.fst, k ∈ b.agents.map Prod.fst) h3 (by simp) ?_
    intro acc acc' a hmem ih hstep
    unfold childAgent at hstep
    split at hstep
    · injection hstep with hstep; subst hstep; exact ih
    · split at hstep
      · injection hstep with hstep; subst hstep
        refine ⟨Dict.nodup_set ih.1 _ _, ?_⟩
        intro k hk
        dsimp only at hk
        rw [Dict.keys_set] at hk
        split at hk
        · exact ih.2 k hk
        · rcases List.mem_append.1 hk with hk | hk
          · exact ih.2 k hk
          · simp only [List.mem_singleton] at hk
            rw [hk]
            exact List.mem_map_of_mem hmem
      · cases hstep
      · cases hstep
  · unfold mapTubes at h1
    rw [mapM_ok_iff] at h1
    cases hb : b.agents with
    | nil => rw [hb] at h1; cases h1; cases h2
    | cons x xs =>
      rw [hb] at h1
      cases h1 with
      | @cons _ y _ ys r1 r2 =>
        cases hg : Dict.get? full x.1 with
        | none => simp only [hg] at r1; cases r1
        | some segs =>
          simp only [hg] at r1
          injection r1 with r1; subst r1
          refine ⟨x, by simp, segs, ?_⟩
          cases hdr : segs.drop start with
          | nil => rw [hdr] at h2; cases h2
          | cons s rest =>
            rw [hdr] at h2
            injection h2 with h2; subst h2
            refine ⟨s, hg, ?_, rfl⟩
            have := congrArg (fun l => l[0]?) hdr
            simpa [List.getElem?_drop] using this

/-- The tube contains the states of the execution, which entered at rectangle number `off`, from step `g` on. -/
structure Good (dt : ℚ) (N d g off : Nat) (path : Nat → List K) (segs : Tube K) : Prop where
  len : segs.length = N - g
  seg : ∀ (j : Nat) (s : Seg K), segs[j]? = some s → s.t0 = ((g + j : Nat) : ℚ) * dt ∧ Dim d s.box
  inside : ∀ (k : Nat) (s : Seg K), segs[off + k]? = some s → Inside (path k) s.box

/-- The execution enters the node `n` with the phase `φ`. -/
structure Entered (b : Body S G K V D) (flow : String → List V → (Nat → List K) → Prop) (dt : ℚ) (N : Nat) (d : String → Nat)
    (n : Engine.Work (Body S G K V D) (Trace K)) (φ : Phase K V) (g off : Nat) : Prop where
  agents : n.body.agents = b.agents
  static : n.body.static = b.static
  statics : ∀ a ∈ b.agents, (Dict.get? b.static a.1).isSome
  start : n.start = (g : ℚ) * dt
  before : g + off < N
  nodup : (n.trace.map Prod.fst).Nodup
  keys : ∀ k ∈ n.trace.map Prod.fst, k ∈ b.agents.map Prod.fst
  mode : ∀ a ∈ b.agents, Dict.get? n.body.mode a.1 = some (φ.mode a.1)
  tube : ∀ a ∈ b.agents, (∃ segs, Dict.get? n.trace a.1 = some segs ∧ Good dt N (d a.1) g off (φ.path a.1) segs) ∨
    (Dict.get? n.trace a.1 = none ∧ ∃ rs, Dict.get? n.body.init a.1 = some rs ∧ (∀ r ∈ rs, Dim (d a.1) r) ∧ flow a.1 (φ.mode a.1) (φ.path a.1) ∧
      ∃ r, rs[off]? = some r ∧ Inside (φ.path a.1 0) r)
  new : off = 0 ∨ ∃ a ∈ b.agents, Dict.get? n.trace a.1 = none

theorem combineRect_single (r : Rect.Box K) : Rect.combineRect [r] = .ok r := rfl

theorem full_good {w : World S K V} {b : Body S G K V D} {flow : String → List V → (Nat → List K) → Prop} {dt : ℚ} {N : Nat} {d : String → Nat}
    (hsound : SoundTubes w flow dt N d) (hseg : w.segLen = 1) (hwf : (b.agents.map Prod.fst).Nodup)
    {n : Engine.Work (Body S G K V D) (Trace K)} {φ : Phase K V} {g off : Nat} (he : Entered b flow dt N d n φ g off)
    {full : Trace K} (hfill : fillTubes w n.body n.start (((N - g : Nat) : ℚ) * dt) n.trace = .ok full) :
    ∀ a ∈ b.agents, ∃ segs, Dict.get? full a.1 = some segs ∧ Good dt N (d a.1) g off (φ.path a.1) segs := by
  obtain ⟨h1, h2⟩ := fillTubes_spec (by rw [he.agents]; exact hwf) hfill
  intro a ha
  rcases he.tube a ha with ⟨segs, g1, g2⟩ | ⟨g1, rs, g2, g3, g4, r, g5, g6⟩
  · exact ⟨segs, h1 _ _ g1, g2⟩
  · obtain ⟨m, i, t, q1, q2, ⟨t0, q3, rfl⟩, q4⟩ := h2 a (by rw [he.agents]; exact ha) g1
    rw [he.mode a ha] at q1; injection q1 with q1; subst q1
    rw [g2] at q2; injection q2 with q2; subst q2
    refine ⟨_, q4, ?_⟩
    rw [hseg] at q3
    obtain ⟨⟨c, hc, hex⟩, hin⟩ := fullTube_spec (d := d a.1) (fun c hc s hs => hsound.dims a.1 _ c g hc.1 hc.2 s hs) g3 q3
    have hcd : Dim (d a.1) c := combineRect_dim (fun r hr => g3 r (List.mem_of_mem_take hr)) hc
    refine ⟨?_, ?_, ?_⟩
    · rw [List.length_map, hex.len, hsound.length a.1 _ c g hcd.1 hcd.2]
    · intro j s hs
      rw [List.getElem?_map] at hs
      obtain ⟨s0, hs0, rfl⟩ := Option.map_eq_some_iff.1 hs
      obtain ⟨hd0, s1, hs1, e1, _, _⟩ := hex.seg j s0 hs0
      refine ⟨?_, hd0⟩
      simp only
      rw [e1, hsound.times a.1 _ c g j s1 hcd.1 hcd.2 hs1, he.start]
      push_cast; ring
    · intro k s hs
      rw [List.getElem?_map] at hs
      obtain ⟨s0, hs0, rfl⟩ := Option.map_eq_some_iff.1 hs
      have hoff := (List.getElem?_eq_some_iff.1 g5).1
      have hcr : Rect.combineRect ((rs.drop off).take 1) = .ok r := by
        have : (rs.drop off).take 1 = [r] := by
          rw [List.drop_eq_getElem_cons hoff]
          have := (List.getElem?_eq_some_iff.1 g5).2
          rw [this]; rfl
        rw [this]; rfl
      obtain ⟨s', hs', hle⟩ := hin off r (one_dvd off) hoff hcr k s0 hs0
      exact inside_of_boxLe' hle (hsound.inside a.1 _ r g k s' (φ.path a.1) g4 g6 hs')
where inside_of_boxLe' {p : List K} {a b : Rect.Box K} (h : BoxLe a b) (hp : Inside p a) : Inside p b :=
  ⟨Verif.Proofs.Rect.Le.trans h.1 hp.1, Verif.Proofs.Rect.Le.trans hp.2 h.2⟩

end Verif.Proofs.Ver
