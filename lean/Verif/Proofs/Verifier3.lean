import Verif.Proofs.Verifier2

/-! What `get_transition_verify_opt` returns is justified. -/

set_option autoImplicit false
set_option linter.unusedSectionVars false

namespace Verif.Proofs.Ver

open Verif.Ver Verif.Ver.Spec

variable {S G K V D : Type}

/-- Every combination is one that a choice makes. -/
theorem product_sound {w : World S K V} {b : Body S G K V D} {tr : Trace K} {i : Nat} {a : String} {dl : Logic S G K V D}
    (hs : List (Hit S G K V D)) (hne : hs ≠ [])
    (h1 : ∀ p ∈ dl.paths, HitAt w b tr i a p → ∃ h ∈ hs, h.path = p)
    (h2 : ∀ h ∈ hs, h.path ∈ dl.paths ∧ HitAt w b tr i a h.path ∧ ∃ sd0 sd g C, Boxes b tr 0 sd0 ∧ Boxes b tr i sd ∧
      h.path.prep (w.sense a sd0) = .ok (some g) ∧ h.path.cont g (w.sense a sd) = .ok C ∧
      h.item = ⟨h.path.var, h.path.val, h.path.disc (w.sense a sd0), C⟩)
    (combo : List (Hit S G K V D)) (hc : combo ∈ product ((group (fun (h : Hit S G K V D) => h.path.var) hs).map Prod.snd)) :
    ∃ sel, Selects w b tr i a dl sel ∧ Combo w b tr i a sel combo := by
  rw [mem_product] at hc
  have hc' : List.Forall₂ (fun (h : Hit S G K V D) (kl : String × List (Hit S G K V D)) => h ∈ kl.2) combo
      (group (fun (h : Hit S G K V D) => h.path.var) hs) := by
    generalize group (fun (h : Hit S G K V D) => h.path.var) hs = g at hc
    clear h1 h2
    induction g generalizing combo with
    | nil => cases hc; exact .nil
    | cons kl g ih =>
      cases hc with
      | cons h1 h2 => exact .cons h1 (ih _ h2)
  have hall : ∀ kl ∈ group (fun (h : Hit S G K V D) => h.path.var) hs, ∀ h ∈ kl.2, h ∈ hs ∧ h.path.var = kl.1 := by
    rintro ⟨k, l⟩ hkl h hh
    rw [mem_group] at hkl
    rw [hkl.1, List.mem_filter, decide_eq_true_eq] at hh
    exact hh
  have hvar : combo.map (fun h => h.path.var) = (group (fun (h : Hit S G K V D) => h.path.var) hs).map Prod.fst := by
    clear h1 h2 hc
    generalize group (fun (h : Hit S G K V D) => h.path.var) hs = g at hc' hall
    induction hc' with
    | nil => rfl
    | cons hr _ ih =>
      simp only [List.map_cons]
      rw [ih (fun kl hkl => hall kl (by simp [hkl])), (hall _ (by simp) _ hr).2]
  have hnd : (combo.map (fun h => h.path.var)).Nodup := by rw [hvar]; exact (group_get _ _).1
  have hsub : ∀ h ∈ combo, h ∈ hs := by
    intro h hh
    obtain ⟨kl, hkl, hl⟩ := forall₂_mem_left hc' hh
    exact (hall kl hkl h hl).1
  have hfind : ∀ h ∈ combo, (combo.find? (fun x => decide (x.path.var = h.path.var))) = some h := by
    intro h hh
    clear hvar hc hc' hsub h1 h2
    induction combo with
    | nil => cases hh
    | cons c cs ih =>
      rw [List.map_cons, List.nodup_cons] at hnd
      rcases List.mem_cons.1 hh with rfl | hh
      · simp
      · have : c.path.var ≠ h.path.var := fun e => hnd.1 (e ▸ List.mem_map.2 ⟨h, hh, rfl⟩)
        rw [List.find?_cons_of_neg (by simpa using this)]
        exact ih hnd.2 hh
  refine ⟨fun v => (combo.find? (fun x => decide (x.path.var = v))).map Hit.path, ⟨?_, ?_, ?_⟩, hnd, ?_, ?_⟩
  · intro v p hp
    obtain ⟨h, hh, rfl⟩ := Option.map_eq_some_iff.1 hp
    have hm := List.mem_of_find?_eq_some hh
    have hv := List.find?_some hh
    obtain ⟨q1, q2, _⟩ := h2 h (hsub h hm)
    exact ⟨q1, by simpa using hv, q2⟩
  · intro p hp hit
    obtain ⟨h, hh, rfl⟩ := h1 p hp hit
    have hkl : (h.path.var, hs.filter (fun x => decide (x.path.var = h.path.var))) ∈ group (fun (h : Hit S G K V D) => h.path.var) hs :=
      (mem_group _ _ _ _).2 ⟨rfl, List.ne_nil_of_mem (List.mem_filter.2 ⟨hh, by simp⟩)⟩
    obtain ⟨x, hx, hx2⟩ := forall₂_mem_right hc' hkl
    rw [List.mem_filter, decide_eq_true_eq] at hx2
    rw [← hx2.2]; beta_reduce; rw [hfind x hx]; rfl
  · obtain ⟨h, hh⟩ := List.exists_mem_of_ne_nil _ hne
    have hkl : (h.path.var, hs.filter (fun x => decide (x.path.var = h.path.var))) ∈ group (fun (h : Hit S G K V D) => h.path.var) hs :=
      (mem_group _ _ _ _).2 ⟨rfl, List.ne_nil_of_mem (List.mem_filter.2 ⟨hh, by simp⟩)⟩
    obtain ⟨x, hx, _⟩ := forall₂_mem_right hc' hkl
    exact ⟨x.path.var, by beta_reduce; rw [hfind x hx]; rfl⟩
  · intro h hh
    exact ⟨by beta_reduce; rw [hfind h hh]; rfl, (h2 h (hsub h hh)).2.2⟩
  · intro v p hp
    obtain ⟨h, hh, rfl⟩ := Option.map_eq_some_iff.1 hp
    exact ⟨h, List.mem_of_find?_eq_some hh, rfl⟩

theorem checkSample_sound {w : World S K V} {b : Body S G K V D} (hn : (b.agents.map Prod.fst).Nodup) {tr : Trace K} {i : Nat}
    {prep : Dict String (List (Prepared S G K V D))} (hp : prepare w b tr = .ok prep)
    {s : Sample S G K V D} (h : checkSample w b prep tr i = .ok s) :
    ∀ a combo, (a, combo) ∈ s.hits → ∃ dl sel, Controlled b a dl ∧ Selects w b tr i a dl sel ∧ Combo w b tr i a sel combo := by
  obtain ⟨sd0, hb0, hprep⟩ := prepare_spec hn hp
  unfold checkSample at h
  obtain ⟨sd, hsd, h⟩ := (bind_ok_iff _ _ _).1 h
  rw [stateDict_ok_iff] at hsd
  have huniq : ∀ a dl dl', Controlled b a dl → Controlled b a dl' → dl = dl' := by
    intro a dl dl' h1 h2
    have e1 := Dict.get?_of_mem hn h1.1
    have e2 := Dict.get?_of_mem hn h2.1
    rw [e1] at e2
    exact Option.some.inj e2
  refine foldlM_inv_pre (fun _ (s : Sample S G K V D) => ∀ a combo, (a, combo) ∈ s.hits → ∃ dl sel, Controlled b a dl ∧ Selects w b tr i a dl sel ∧
    Combo w b tr i a sel combo) h (by simp) ?_
  intro pre x acc acc' hxmem hinv hstep
  have hx : Controlled b x.1 x.2 := mem_controlled.1 hxmem
  unfold checkAgent at hstep
  obtain ⟨fs, hfs, hstep⟩ := (bind_ok_iff _ _ _).1 hstep
  by_cases hne : fs ≠ []
  · rw [if_pos hne] at hstep
    cases hstep
    exact hinv
  · rw [if_neg hne] at hstep
    obtain ⟨r, hr, rfl⟩ := (map_ok_iff _ _ _).1 hstep
    obtain ⟨l, hl1, hl2⟩ := hprep x.1 x.2 hx
    obtain ⟨pp1, pp2⟩ := preparePaths_spec _ _ _ hl2
    rw [hl1] at hr
    obtain ⟨hs, r1, r2, r3, r4⟩ := checkPaths_spec _ _ _ hr
    have hask : ∀ p q, Asked w b tr i x.1 p q ↔ ∃ y ∈ l, y.path = p ∧ y.path.check y.g (w.sense x.1 sd) = .ok q := by
      intro p q
      constructor
      · rintro ⟨dl, sd0', sd', g, c1, c2, c3, c4, c5, c6⟩
        cases huniq _ _ _ c1 hx
        cases boxes_det c3 hb0
        cases boxes_det c4 hsd
        rcases pp2 p c2 with c | ⟨g', c, c'⟩
        · rw [c] at c5; cases c5
        · rw [c] at c5; cases c5
          exact ⟨_, c', rfl, c6⟩
      · rintro ⟨y, y1, rfl, y3⟩
        obtain ⟨z1, z2, z3⟩ := pp1 y y1
        exact ⟨x.2, sd0, sd, y.g, hx, z1, hb0, hsd, z3, y3⟩
    have k1 : ∀ p ∈ x.2.paths, HitAt w b tr i x.1 p → ∃ h ∈ hs, h.path = p := by
      rintro p _ ⟨c, hc⟩
      obtain ⟨y, y1, rfl, y3⟩ := (hask p _).1 hc
      obtain ⟨q, q1, q2⟩ := r2 y y1
      rw [y3] at q1
      cases q1
      obtain ⟨h, hh, C, _, rfl⟩ := q2 rfl
      exact ⟨_, hh, rfl⟩
    have k2 : ∀ h ∈ hs, h.path ∈ x.2.paths ∧ HitAt w b tr i x.1 h.path ∧ ∃ sd0 sd g C, Boxes b tr 0 sd0 ∧ Boxes b tr i sd ∧
      h.path.prep (w.sense x.1 sd0) = .ok (some g) ∧ h.path.cont g (w.sense x.1 sd) = .ok C ∧
      h.item = ⟨h.path.var, h.path.val, h.path.disc (w.sense x.1 sd0), C⟩ := by
      intro h hh
      obtain ⟨y, y1, ⟨C, hC, rfl⟩, c, hc⟩ := r3 h hh
      obtain ⟨z1, z2, z3⟩ := pp1 y y1
      refine ⟨z1, ⟨c, (hask _ _).2 ⟨y, y1, rfl, hc⟩⟩, sd0, sd, y.g, C, hb0, hsd, z3, hC, ?_⟩
      rw [z2]
    intro a combo hac
    simp only at hac
    by_cases e : r.1 = []
    · rw [if_pos e] at hac
      exact hinv a combo hac
    · rw [if_neg e] at hac
      rcases List.mem_append.1 hac with hac | hac
      · exact hinv a combo hac
      · obtain ⟨c, hc, hcc⟩ := List.mem_map.1 hac
        cases hcc
        rw [r1] at hc
        have hne' : hs ≠ [] := by
          rintro rfl
          exact e (by rw [r1]; rfl)
        obtain ⟨sel, s1, s2⟩ := product_sound hs hne' k1 k2 combo hc
        exact ⟨x.2, sel, hx, s1, s2⟩

/-- The scan sees the steps one after the other, and those before its end have no failed assert. -/
theorem scan_prefix {w : World S K V} {b : Body S G K V D} {prep : Dict String (List (Prepared S G K V D))} {tr : Trace K}
    (left i : Nat) (acc l : List (Sample S G K V D × Nat)) (h : scan w b prep tr left i acc = .ok (.hits l)) :
    ∃ t N, l = acc ++ t ∧ N ≤ i + left ∧ (∀ j, i ≤ j → j < N → ∃ s, checkSample w b prep tr j = .ok s ∧ s.asserts = []) ∧
      (∀ x ∈ t, x.2 < N) ∧ (N = i + left ∨ ∃ s, i < N ∧ checkSample w b prep tr (N - 1) = .ok s ∧ (s.contained = true ∨ l ≠ [])) := by
  induction left generalizing i acc with
  | zero => cases h; exact ⟨[], i, by simp, by simp, fun j h1 h2 => by omega, by simp, .inl rfl⟩
  | succ left ih =>
    unfold scan at h
    obtain ⟨s, hs, h⟩ := (bind_ok_iff _ _ _).1 h
    by_cases ha : s.asserts ≠ []
    · rw [if_pos ha] at h; cases h
    · rw [if_neg ha] at h
      push Not at ha
      have one : ∀ j, i ≤ j → j < i + 1 → ∃ s, checkSample w b prep tr j = .ok s ∧ s.asserts = [] := by
        intro j j1 j2
        have : j = i := by omega
        subst this
        exact ⟨s, hs, ha⟩
      by_cases he : s.hits.isEmpty = true
      · rw [if_pos he] at h
        by_cases hb : (!acc.isEmpty || s.contained) = true
        · rw [if_pos hb] at h; cases h
          refine ⟨[], i + 1, by simp, by omega, one, by simp, .inr ⟨s, by omega, hs, ?_⟩⟩
          by_cases hc : s.contained = true
          · exact .inl hc
          · right
            intro e
            rw [e] at hb
            simp [hc] at hb
        · rw [if_neg hb] at h
          obtain ⟨t, N, t1, t2, t3, t4, t5⟩ := ih _ _ h
          refine ⟨t, N, t1, by omega, ?_, t4, ?_⟩
          · intro j j1 j2
            by_cases e : j = i
            · subst e; exact ⟨s, hs, ha⟩
            · exact t3 j (by omega) j2
          · rcases t5 with t5 | ⟨s', t5, t6⟩
            · left; omega
            · right; exact ⟨s', by omega, t6⟩
      · rw [if_neg he] at h
        by_cases hb : s.contained = true
        · rw [if_pos hb] at h; cases h
          exact ⟨[(s, i)], i + 1, rfl, by omega, one, by simp, .inr ⟨s, by omega, hs, .inl hb⟩⟩
        · rw [if_neg hb] at h
          obtain ⟨t, N, t1, t2, t3, t4, t5⟩ := ih _ _ h
          have hN : i < N := by
            rcases t5 with t5 | ⟨_, t5, _⟩ <;> omega
          refine ⟨(s, i) :: t, N, by simp [t1], by omega, ?_, ?_, ?_⟩
          · intro j j1 j2
            by_cases e : j = i
            · subst e; exact ⟨s, hs, ha⟩
            · exact t3 j (by omega) j2
          · intro x hx
            rcases List.mem_cons.1 hx with rfl | hx
            · exact hN
            · exact t4 x hx
          · rcases t5 with t5 | ⟨s', t5, t6⟩
            · left; omega
            · right; exact ⟨s', by omega, t6⟩

section
variable [Field K] [LinearOrder K]

theorem events_sound {w : World S K V} {b : Body S G K V D} {tr : Trace K} {l : List (Sample S G K V D × Nat)}
    {evs : List (Event S G K V D)} (h : events w b tr l = .ok evs) : ∀ e ∈ evs, ∃ s dl segs m seg dests,
      (s, e.idx) ∈ l ∧ (e.agent, e.combo) ∈ s.hits ∧ Dict.get? b.agents e.agent = some dl ∧ Dict.get? tr e.agent = some segs ∧
      Dict.get? b.mode e.agent = some m ∧ segs[e.idx]? = some seg ∧
      Rst.applyReset w.sh w.rd dl.cont dl.disc m seg.box (e.combo.map Hit.item) = .ok (dests, e.rect) ∧
      (e.dest = none ∧ dests = [] ∨ ∃ d ∈ dests, e.dest = some d) := by
  obtain ⟨ess, h1, rfl⟩ := (map_ok_iff _ _ _).1 h
  rw [mapM_ok_iff] at h1
  intro e he
  obtain ⟨es, hes, he⟩ := List.mem_flatten.1 he
  obtain ⟨s, hs, h2⟩ := forall₂_mem_right h1 hes
  obtain ⟨zs, h3, rfl⟩ := (map_ok_iff _ _ _).1 h2
  rw [mapM_ok_iff] at h3
  obtain ⟨z, hz, he⟩ := List.mem_flatten.1 he
  obtain ⟨x, hx, h4⟩ := forall₂_mem_right h3 hz
  unfold eventsOf at h4
  split at h4
  · rename_i dl segs m e1 e2 e3
    split at h4
    · rename_i seg e4
      obtain ⟨r, hr, rfl⟩ := (map_ok_iff _ _ _).1 h4
      obtain ⟨d, hd, rfl⟩ := List.mem_map.1 he
      refine ⟨s.1, dl, segs, m, seg, r.1, hs, hx, e1, e2, e3, e4, hr, ?_⟩
      by_cases hem : r.1.isEmpty = true
      · rw [if_pos hem] at hd
        simp only [List.mem_singleton] at hd
        exact .inl ⟨hd, List.isEmpty_iff.1 hem⟩
      · rw [if_neg hem] at hd
        obtain ⟨d', hd', rfl⟩ := List.mem_map.1 hd
        exact .inr ⟨d', hd', rfl⟩
    · cases h4
  · cases h4

end

theorem grouped_sound [DecidableEq V] (evs : List (Event S G K V D)) (t : Trans S G K V D) (ht : t ∈ grouped evs) :
    ∃ e rest k, e :: rest = evs.filter (fun x => decide (x.agent = t.agent) && (decide (x.combo.length = k) && decide (x.dest = t.dest))) ∧
      t.inits = (e :: rest).map Event.rect ∧ t.idxs = (e :: rest).map Event.idx ∧ t.paths = e.combo.map Hit.path := by
  unfold grouped at ht
  obtain ⟨⟨a, A⟩, ha, ht⟩ := List.mem_flatMap.1 ht
  obtain ⟨⟨k, B⟩, hb, ht⟩ := List.mem_flatMap.1 ht
  obtain ⟨⟨d, C⟩, hc, rfl⟩ := List.mem_map.1 ht
  rw [mem_group] at ha hb hc
  obtain ⟨rfl, -⟩ := ha
  obtain ⟨rfl, -⟩ := hb
  obtain ⟨rfl, hne⟩ := hc
  simp only
  rw [List.filter_filter, List.filter_filter] at hne
  rw [List.filter_filter, List.filter_filter]
  have key : (evs.filter (fun a_1 => (decide (a_1.dest = d) && decide (a_1.combo.length = k)) && decide (a_1.agent = a))) =
      evs.filter (fun x => decide (x.agent = a) && (decide (x.combo.length = k) && decide (x.dest = d))) := by
    apply List.filter_congr
    intro x _
    cases decide (x.dest = d) <;> cases decide (x.combo.length = k) <;> cases decide (x.agent = a) <;> rfl
  simp only [Bool.and_assoc] at key hne ⊢
  rw [key] at hne ⊢
  obtain ⟨e, rest, he⟩ := List.exists_cons_of_ne_nil hne
  refine ⟨e, rest, k, he.symm, ?_⟩
  rw [he]
  exact ⟨rfl, rfl, rfl⟩

end Verif.Proofs.Ver
