import Verif.Proofs.Safe
import Verif.Props.Partitioned
import Verif.Spec.PartExec

/-! The tree of the partitioned analysis follows executions. -/

set_option autoImplicit false
set_option linter.unusedSectionVars false

namespace Verif.Proofs.Ver

open Verif.Ver Verif.Ver.Spec Verif.Rect.Spec Verif.Rst.Spec Verif.Props Verif.Spec

section
variable {K : Type} [LinearOrder K]

theorem combineRect_le {d : Nat} {l : List (Rect.Box K)} {c : Rect.Box K} (hl : ∀ r ∈ l, Dim d r) (h : Rect.combineRect l = .ok c) :
    ∀ r ∈ l, BoxLe r c := by
  have hmin : ∀ (m : List (List K)) (a : List K), a.length = d → (∀ x ∈ m, x.length = d) →
      Rect.Le (m.foldl Rect.rowMin a) a ∧ ∀ x ∈ m, Rect.Le (m.foldl Rect.rowMin a) x := by
    intro m
    induction m with
    | nil => intro a _ _; exact ⟨Rect.Le.refl _, by simp⟩
    | cons y m ih =>
      intro a ha hm
      obtain ⟨h1, h2⟩ := rowMin_le (ha.trans (hm y (by simp)).symm)
      obtain ⟨i1, i2⟩ := ih (Rect.rowMin a y) (h1.length_eq.trans ha) (fun x hx => hm x (by simp [hx]))
      refine ⟨Rect.Le.trans i1 h1, ?_⟩
      intro x hx
      rcases List.mem_cons.1 hx with rfl | hx
      · exact Rect.Le.trans i1 h2
      · exact i2 x hx
  have hmax : ∀ (m : List (List K)) (a : List K), a.length = d → (∀ x ∈ m, x.length = d) →
      Rect.Le a (m.foldl Rect.rowMax a) ∧ ∀ x ∈ m, Rect.Le x (m.foldl Rect.rowMax a) := by
    intro m
    induction m with
    | nil => intro a _ _; exact ⟨Rect.Le.refl _, by simp⟩
    | cons y m ih =>
      intro a ha hm
      obtain ⟨h1, h2⟩ := le_rowMax (ha.trans (hm y (by simp)).symm)
      obtain ⟨i1, i2⟩ := ih (Rect.rowMax a y) (h1.length_eq.symm.trans ha) (fun x hx => hm x (by simp [hx]))
      refine ⟨Rect.Le.trans h1 i1, ?_⟩
      intro x hx
      rcases List.mem_cons.1 hx with rfl | hx
      · exact Rect.Le.trans h2 i1
      · exact i2 x hx
  cases l with
  | nil => cases h
  | cons r rs =>
    injection h with h; subst h
    obtain ⟨m1, m2⟩ := hmin (rs.map Prod.fst) r.1 (hl r (by simp)).1 (by
      intro x hx
      obtain ⟨q, hq, rfl⟩ := List.mem_map.1 hx
      exact (hl q (List.mem_cons_of_mem _ hq)).1)
    obtain ⟨x1, x2⟩ := hmax (rs.map Prod.snd) r.2 (hl r (by simp)).2 (by
      intro x hx
      obtain ⟨q, hq, rfl⟩ := List.mem_map.1 hx
      exact (hl q (List.mem_cons_of_mem _ hq)).2)
    intro q hq
    rcases List.mem_cons.1 hq with rfl | hq
    · exact ⟨m1, x1⟩
    · exact ⟨m2 _ (List.mem_map_of_mem hq), x2 _ (List.mem_map_of_mem hq)⟩

/-- The tube of several initial rectangles: its length, its times and what it contains. -/
theorem partTube_spec {bloat : Rect.Box K → Tube K} {d m : Nat} {T : Nat → ℚ} {is : List (Rect.Box K)} {t : Tube K} (h : partTube bloat is = .ok t)
    (hb : ∀ r ∈ is, (bloat r).length = m ∧ ∀ (j : Nat) (s : Seg K), (bloat r)[j]? = some s → s.t0 = T j ∧ Dim d s.box) :
    t.length = m ∧ ∀ (j : Nat) (s : Seg K), t[j]? = some s → s.t0 = T j ∧ Dim d s.box ∧
      ∀ r ∈ is, ∃ s0 : Seg K, (bloat r)[j]? = some s0 ∧ BoxLe s0.box s.box := by
  have hone : ∀ i : Rect.Box K, fullTube bloat 1000 [i] = .ok (bloat i) := by
    rintro ⟨l, u⟩; rfl
  match is, h with
  | [], h => cases h
  | [i], h =>
    have h' : fullTube bloat 1000 [i] = .ok t := h
    rw [hone] at h'
    injection h' with h'
    subst h'
    refine ⟨(hb i (by simp)).1, fun j s hs => ⟨((hb i (by simp)).2 j s hs).1, ((hb i (by simp)).2 j s hs).2, fun r hr => ?_⟩⟩
    simp only [List.mem_singleton] at hr
    subst hr
    exact ⟨s, hs, BoxLe.refl _⟩
  | i :: i' :: is, h =>
    have h' : Except.bind ((i :: i' :: is).mapM (fun i => fullTube bloat 1000 [i])) unionTubes = .ok t := h
    have hu : (i :: i' :: is).mapM (fun i => fullTube bloat 1000 [i]) = .ok ((i :: i' :: is).map bloat) := by
      rw [Proofs.Cont.mapM_map_ok]
      intro i _
      exact hone i
    rw [hu] at h'
    have h2 : unionTubes ((i :: i' :: is).map bloat) = .ok t := h'
    rw [List.map_cons] at h2
    simp only [unionTubes] at h2
    rw [mapM_ok_iff, (hb i (by simp)).1] at h2
    have hlen := h2.length_eq
    rw [List.length_range] at hlen
    refine ⟨hlen.symm, fun j s hs => ?_⟩
    have hj : j < m := by
      have := (List.getElem?_eq_some_iff.1 hs).1
      omega
    rw [List.forall₂_iff_get] at h2
    have h3 := h2.2 j (by simpa using hj) (by omega)
    simp only [List.get_eq_getElem, List.getElem_range] at h3
    have hsj : t[j]'(by omega) = s := (List.getElem?_eq_some_iff.1 hs).2
    rw [hsj] at h3
    obtain ⟨col, hcol, hun⟩ := (bind_ok_iff _ _ _).1 h3
    unfold segColumn at hcol
    rw [mapM_ok_iff] at hcol
    have hcol1 : ∀ r ∈ i :: i' :: is, ∃ s0 ∈ col, (bloat r)[j]? = some s0 := by
      intro r hr
      have : bloat r ∈ bloat i :: (i' :: is).map bloat := by
        rw [← List.map_cons]; exact List.mem_map_of_mem hr
      obtain ⟨s0, q1, q2⟩ := forall₂_mem_left hcol this
      refine ⟨s0, q1, ?_⟩
      split at q2
      · rename_i e; injection q2 with q2; rw [← q2]; exact e
      · cases q2
    have hcol2 : ∀ s0 ∈ col, s0.t0 = T j ∧ Dim d s0.box := by
      intro s0 hs0
      obtain ⟨t0, q1, q2⟩ := forall₂_mem_right hcol hs0
      rw [← List.map_cons] at q1
      obtain ⟨r, hr, rfl⟩ := List.mem_map.1 q1
      split at q2
      · rename_i e; injection q2 with q2; rw [← q2]; exact (hb r hr).2 j _ e
      · cases q2
    cases col with
    | nil => cases hun
    | cons s1 ss =>
      simp only [unionSeg] at hun
      obtain ⟨c, hc, rfl⟩ := (map_ok_iff _ _ _).1 hun
      have hbox : ∀ x ∈ s1.box :: ss.map Seg.box, Dim d x := by
        intro x hx
        rw [← List.map_cons] at hx
        obtain ⟨s0, hs0, rfl⟩ := List.mem_map.1 hx
        exact (hcol2 s0 hs0).2
      refine ⟨?_, combineRect_dim hbox hc, fun r hr => ?_⟩
      · have hfold : ∀ (l : List ℚ) (b : ℚ), (∀ x ∈ l, x = b) → l.foldl min b = b := by
          intro l
          induction l with
          | nil => intro b _; rfl
          | cons y l ih =>
            intro b hl
            rw [List.foldl_cons, hl y (by simp), min_self]
            exact ih b (fun x hx => hl x (by simp [hx]))
        have e := (hcol2 s1 (by simp)).1
        simp only
        rw [e]
        refine hfold _ _ ?_
        intro x hx
        obtain ⟨s0, hs0, rfl⟩ := List.mem_map.1 hx
        exact (hcol2 s0 (by simp [hs0])).1
      · obtain ⟨s0, hs0, q⟩ := hcol1 r hr
        refine ⟨s0, q, combineRect_le hbox hc _ ?_⟩
        rw [← List.map_cons]
        exact List.mem_map_of_mem hs0

end

variable {S G K V D : Type} [Field K] [LinearOrder K] [IsStrictOrderedRing K] [DecidableEq V]

/-- The execution enters the node `n` with the phase `φ`: all parts of the initial set begin at the same time. -/
structure PEntered (b : Body S G K V D) (flow : String → List V → (Nat → List K) → Prop) (dt : ℚ) (N : Nat) (d : String → Nat)
    (n : Engine.Work (Body S G K V D) (Trace K)) (φ : Phase K V) (g : Nat) : Prop where
  agents : n.body.agents = b.agents
  static : n.body.static = b.static
  statics : ∀ a ∈ b.agents, (Dict.get? b.static a.1).isSome
  start : n.start = (g : ℚ) * dt
  before : g < N
  nodup : (n.trace.map Prod.fst).Nodup
  keys : ∀ k ∈ n.trace.map Prod.fst, k ∈ b.agents.map Prod.fst
  mode : ∀ a ∈ b.agents, Dict.get? n.body.mode a.1 = some (φ.mode a.1)
  tube : ∀ a ∈ b.agents, (∃ segs, Dict.get? n.trace a.1 = some segs ∧ Good dt N (d a.1) g 0 (φ.path a.1) segs) ∨
    (Dict.get? n.trace a.1 = none ∧ ∃ rs, Dict.get? n.body.init a.1 = some rs ∧ (∀ r ∈ rs, Dim (d a.1) r) ∧ flow a.1 (φ.mode a.1) (φ.path a.1) ∧
      ∃ r ∈ rs, Inside (φ.path a.1 0) r)

theorem fillParts_keys {w : PWorld S K V} {b : Body S G K V D} {start remain : ℚ} {given full : Trace K}
    (h : fillParts w b start remain given = .ok full) (hnd : (given.map Prod.fst).Nodup)
    (hsub : ∀ k ∈ given.map Prod.fst, k ∈ b.agents.map Prod.fst) :
    (full.map Prod.fst).Nodup ∧ ∀ k ∈ full.map Prod.fst, k ∈ b.agents.map Prod.fst := by
  unfold fillParts at h
  refine foldlM_inv (P := fun (tr : Trace K) => (tr.map Prod.fst).Nodup ∧ ∀ k ∈ tr.map Prod.fst, k ∈ b.agents.map Prod.fst) h ⟨hnd, hsub⟩ ?_
  intro tr tr' a hmem ih hstep
  split at hstep
  · injection hstep with hstep; subst hstep; exact ih
  · split at hstep
    · obtain ⟨t0, _, rfl⟩ := (map_ok_iff _ _ _).1 hstep
      refine ⟨Dict.nodup_set ih.1 _ _, ?_⟩
      intro k hk
      rw [Dict.keys_set] at hk
      split at hk
      · exact ih.2 k hk
      · rcases List.mem_append.1 hk with hk | hk
        · exact ih.2 k hk
        · simp only [List.mem_singleton] at hk
          rw [hk]
          exact List.mem_map_of_mem hmem
    · cases hstep

variable {M : Meaning S G K V D} {w : PWorld S K V} {b : Body S G K V D} {flow : String → List V → (Nat → List K) → Prop} {dt : ℚ} {N : Nat}
  {d : String → Nat} {n : Engine.Work (Body S G K V D) (Trace K)} {φ : Phase K V} {g : Nat} {full : Trace K}

theorem pfull_good (hsound : SoundTubes w.toWorld flow dt N d) (hwf : (b.agents.map Prod.fst).Nodup) (he : PEntered b flow dt N d n φ g)
    (hfill : fillParts w n.body n.start (((N - g : Nat) : ℚ) * dt) n.trace = .ok full) :
    ∀ a ∈ b.agents, ∃ segs, Dict.get? full a.1 = some segs ∧ Good dt N (d a.1) g 0 (φ.path a.1) segs := by
  obtain ⟨h1, h2⟩ := fillParts_spec (by rw [he.agents]; exact hwf) hfill
  intro a ha
  rcases he.tube a ha with ⟨segs, g1, g2⟩ | ⟨g1, rs, g2, g3, g4, r, g5, g6⟩
  · exact ⟨segs, h1 _ _ g1, g2⟩
  · obtain ⟨m, i, t, q1, q2, ⟨t0, q3, rfl⟩, q4⟩ := h2 a (by rw [he.agents]; exact ha) g1
    rw [he.mode a ha] at q1; injection q1 with q1; subst q1
    rw [g2] at q2; injection q2 with q2; subst q2
    refine ⟨_, q4, ?_⟩
    obtain ⟨p1, p2⟩ := partTube_spec (d := d a.1) (m := N - g) (T := fun j => (j : ℚ) * dt) q3 (fun r hr =>
      ⟨hsound.length a.1 _ r g (g3 r hr).1 (g3 r hr).2, fun j s hs => ⟨hsound.times a.1 _ r g j s (g3 r hr).1 (g3 r hr).2 hs,
        hsound.dims a.1 _ r g (g3 r hr).1 (g3 r hr).2 s (List.mem_of_getElem? hs)⟩⟩)
    refine ⟨by rw [List.length_map, p1], ?_, ?_⟩
    · intro j s hs
      rw [List.getElem?_map] at hs
      obtain ⟨s0, hs0, rfl⟩ := Option.map_eq_some_iff.1 hs
      obtain ⟨e1, e2, _⟩ := p2 j s0 hs0
      refine ⟨?_, e2⟩
      simp only
      rw [e1, he.start]
      push_cast; ring
    · intro k s hs
      rw [List.getElem?_map] at hs
      obtain ⟨s0, hs0, rfl⟩ := Option.map_eq_some_iff.1 hs
      rw [Nat.zero_add] at hs0
      obtain ⟨_, _, e3⟩ := p2 k s0 hs0
      obtain ⟨s', hs', hle⟩ := e3 r g5
      exact full_good.inside_of_boxLe' hle (hsound.inside a.1 _ r g k s' (φ.path a.1) g4 g6 hs')

/-- The node with its tubes, as in `verify`. -/
theorem PEntered.filled (he : PEntered b flow dt N d n φ g)
    (hg : ∀ a ∈ b.agents, ∃ segs, Dict.get? full a.1 = some segs ∧ Good dt N (d a.1) g 0 (φ.path a.1) segs)
    (hkeys : (full.map Prod.fst).Nodup ∧ ∀ k ∈ full.map Prod.fst, k ∈ n.body.agents.map Prod.fst) :
    Entered b flow dt N d ⟨n.height, n.start, n.body, full⟩ φ g 0 :=
  ⟨he.agents, he.static, he.statics, he.start, by have := he.before; omega, hkeys.1, by rw [← he.agents]; exact hkeys.2, he.mode,
    fun a ha => .inl (hg a ha), .inl rfl⟩

/-- What the proofs below know about a phase in a node. -/
structure Filled (M : Meaning S G K V D) (w : PWorld S K V) (b : Body S G K V D) (flow : String → List V → (Nat → List K) → Prop) (dt : ℚ) (N : Nat)
    (d : String → Nat) (n : Engine.Work (Body S G K V D) (Trace K)) (φ : Phase K V) (g : Nat) (full : Trace K) (steps : Nat) : Prop where
  wf : Body.WF n.body
  good : ∀ a ∈ b.agents, ∃ segs, Dict.get? full a.1 = some segs ∧ Good dt N (d a.1) g 0 (φ.path a.1) segs
  inTube : ∀ k, g + k < N → InTube n.body full k (φ.snap b k)
  hasStep : ∀ k, g + k < N → HasStep full k
  quiet : FirstHit w.toWorld n.body full steps
  reached : ∀ i, i ≤ steps → Reached w.toWorld n.body full i

theorem phase_filled (wf : Body.WF b) (hsound : SoundTubes w.toWorld flow dt N d) (he : PEntered b flow dt N d n φ g)
    (hfill : fillParts w n.body n.start (((N - g : Nat) : ℚ) * dt) n.trace = .ok full) (hok : PartOK M w n full) {steps : Nat}
    (hq : Quiet M b φ steps) : Filled M w b flow dt N d n φ g full steps := by
  have hwf' : Body.WF n.body := ⟨by rw [he.agents]; exact wf.names, by rw [he.agents]; exact wf.logics⟩
  have hg := pfull_good hsound wf.names he hfill
  have hkeys := fillParts_keys hfill he.nodup (by rw [he.agents]; exact he.keys)
  have he' := he.filled hg hkeys
  have hin : ∀ k, g + k < N → InTube n.body full k (φ.snap b k) := by
    intro k hk
    have := phase_inTube he' hg (k := k) (by omega)
    rw [Nat.zero_add] at this
    exact this
  have hlen : ∀ j a p r, Asked w.toWorld n.body full j a p r → g + j < N := by
    rintro j a p r ⟨dl, sd0, sd, gd, q1, q2, q3, q4, _⟩
    have hab : (a, dl) ∈ b.agents := by rw [← he.agents]; exact q1.1
    obtain ⟨segs, g1, g2⟩ := hg _ hab
    obtain ⟨x, hx, x1, ⟨segs', x2, x3⟩, _⟩ := forall₂_mem_left q4 q1.1
    rw [g1] at x2
    injection x2 with x2
    subst x2
    have hl := (List.getElem?_eq_some_iff.1 x3).1
    rw [g2.len] at hl
    omega
  have hquiet : FirstHit w.toWorld n.body full steps := by
    intro j
    induction j using Nat.strong_induction_on with
    | _ j ih =>
      intro a p hj hit
      have hN : g + j < N := by
        obtain ⟨c, hc⟩ := hit
        exact hlen _ _ _ _ hc
      obtain ⟨a', dl, p', k1, k2, k3⟩ := hok.sharp j a p hit (fun i a' p' hi => ih i hi a' p' (by omega)) _ (hin j hN)
      exact hq j a' dl p' hj ⟨by rw [← he.agents]; exact k1.1, k1.2⟩ k2 k3
  refine ⟨hwf', hg, hin, fun k hk => hasStep_iff he' hg hkeys hk, hquiet, fun i hi => ⟨fun j a p hj hc => ?_, fun j k a p hjk hki hit => ?_⟩⟩
  · have hN : g + j < N := by
      obtain ⟨c, hc⟩ := hc
      exact hlen _ _ _ _ hc
    have h := hok.contained j a p hc _ (hin j hN)
    obtain ⟨_, dl, _, _, _, q1, q2, _⟩ := hc
    exact hq j a dl p (by omega) ⟨by rw [← he.agents]; exact q1.1, q1.2⟩ q2 h
  · exact absurd hit (hquiet j a p (by omega))

theorem partChild_stop {b : Body S G K V D} {t : Trans S G K V D}
    {cc : Engine.Child (Body S G K V D) (Trace K) × Nat} (h : partChild w b full t = .ok cc) : t.idxs.getLast? = some cc.2 := by
  unfold partChild at h
  split at h
  · rename_i st sp de e1 e2 e3
    obtain ⟨rs, _, h⟩ := (bind_ok_iff _ _ _).1 h
    obtain ⟨c, _, rfl⟩ := (map_ok_iff _ _ _).1 h
    exact e2
  · cases h

/-- The trace of the result contains the states of the phase. -/
theorem part_kept (he : PEntered b flow dt N d n φ g) {steps : Nat} (hf : Filled M w b flow dt N d n φ g full steps)
    (hfill : fillParts w n.body n.start (((N - g : Nat) : ℚ) * dt) n.trace = .ok full)
    {res : Engine.Result (Body S G K V D) (Trace K) (Option (Dict String (List String)))}
    (hrun : verifyPart w n (((N - g : Nat) : ℚ) * dt) = .ok res) (hsafe : res.hits = none) :
    ∀ k, k ≤ steps → g + k < N → ∀ a ∈ b.agents, ∃ segs, Dict.get? res.trace a.1 = some segs ∧
      ∃ s ∈ segs, s.t0 = ((g + k : Nat) : ℚ) * dt ∧ Inside (φ.path a.1 k) s.box := by
  intro k hk hN a ha
  obtain ⟨segs, g1, g2⟩ := hf.good a ha
  have hlt : k < segs.length := by rw [g2.len]; omega
  have hgood : segs[k].t0 = ((g + k : Nat) : ℚ) * dt ∧ Inside (φ.path a.1 k) segs[k].box :=
    ⟨(g2.seg k _ (List.getElem?_eq_getElem hlt)).1, g2.inside k _ (by rw [Nat.zero_add]; exact List.getElem?_eq_getElem hlt)⟩
  obtain ⟨full', hfill', hrun⟩ := (bind_ok_iff _ _ _).1 hrun
  rw [hfill] at hfill'
  injection hfill' with hfill'
  subst hfill'
  obtain ⟨found, hfound, h⟩ := (bind_ok_iff _ _ _).1 hrun
  cases found with
  | asserts ad idx =>
    dsimp only at h
    split at h
    · cases h; cases hsafe
    · obtain ⟨cut, _, rfl⟩ := (map_ok_iff _ _ _).1 h
      cases hsafe
  | trans ts =>
    cases ts with
    | nil =>
      cases h
      exact ⟨segs, g1, _, List.getElem_mem hlt, hgood⟩
    | cons u us =>
      dsimp only at h
      obtain ⟨cs, hcs, h⟩ := (bind_ok_iff _ _ _).1 h
      obtain ⟨cut, hcut, rfl⟩ := (map_ok_iff _ _ _).1 h
      rw [mapM_ok_iff] at hcs
      obtain ⟨cc, hcc, hch⟩ := forall₂_mem_left hcs (List.mem_cons_self (a := u) (l := us))
      have hstop := partChild_stop hch
      obtain ⟨evs, hts, hsort, hjust, _⟩ := found_spec hf.wf hfound
      have hu := ((mem_permitted _ _ hts u).1 (by simp)).1
      obtain ⟨⟨e, he1, he2⟩, _⟩ := grouped_idx evs u hu
      have hmem : e.idx ∈ u.idxs := List.mem_of_mem_head? he2
      have hle : k ≤ (cs.map Prod.snd).foldl max 0 := by
        refine le_trans ?_ (le_trans (le_getLast (grouped_sorted evs hsort u hu) hmem hstop) ((le_foldl_max _ _).2 _ (List.mem_map_of_mem hcc)))
        by_contra hlt'
        obtain ⟨dl, sel, _, _, _, _, z1, z2, _⟩ := hjust e he1
        obtain ⟨v, hv⟩ := z2.2.2
        obtain ⟨p, hp⟩ := Option.isSome_iff_exists.1 hv
        exact hf.quiet e.idx e.agent p (by omega) (z2.1 v p hp).2.2
      obtain ⟨m1, _⟩ := mapTubes_spec hf.wf.names hcut
      obtain ⟨segs', q1, q2⟩ := m1 a (by rw [he.agents]; exact ha)
      rw [g1] at q1
      injection q1 with q1
      subst q1
      refine ⟨_, q2, segs[k], ?_, hgood⟩
      have : (segs.take ((cs.map Prod.snd).foldl max 0 + 1))[k]? = some segs[k] := by
        rw [List.getElem?_take_of_lt (by omega)]
        exact List.getElem?_eq_getElem hlt
      exact List.mem_of_getElem? this

/-- A child continues the execution after a switch. -/
theorem part_follow (hround : ∀ k : Nat, w.round10 ((k : ℚ) * dt) = (k : ℚ) * dt) (hparts : 0 < w.parts)
    (he : PEntered b flow dt N d n φ g) {steps : Nat} (hf : Filled M w b flow dt N d n φ g full steps)
    (hfill : fillParts w n.body n.start (((N - g : Nat) : ℚ) * dt) n.trace = .ok full) (hok : PartOK M w n full)
    {res : Engine.Result (Body S G K V D) (Trace K) (Option (Dict String (List String)))}
    (hrun : verifyPart w n (((N - g : Nat) : ℚ) * dt) = .ok res) (hsafe : res.hits = none)
    {φ' : Phase K V} (hsw : Switches M w.toWorld b flow φ steps φ') (hN : g + steps < N) :
    ∃ c ∈ res.next, ∀ h st, st = c.start → PEntered b flow dt N d ⟨h, st, c.body, c.trace⟩ φ' (g + steps) := by
  have htube := hf.inTube steps hN
  obtain ⟨a, dl, hcan, hflow, hother⟩ := hsw
  have hcan' : CanSwitch M w.toWorld n.body (φ.snap b steps) a dl (φ'.mode a) (φ'.path a 0) := by
    obtain ⟨state, mode, static, q1, q2⟩ := hcan
    exact ⟨state, mode, static, ⟨by rw [he.agents]; exact q1.1, q1.2⟩, q2⟩
  have hctl : Controlled n.body a dl := by
    obtain ⟨_, _, _, q1, _⟩ := hcan'
    exact q1
  have hab : (a, dl) ∈ b.agents := by rw [← he.agents]; exact hctl.1
  obtain ⟨c, hcn, t, rs, rect, hc, t1, hr, hpost, hrs⟩ := part_switch hf.wf hrun hsafe hparts hfill hok.faithful hok.resettable hok.parts
    (hf.hasStep _ hN) (hf.reached _ (le_refl _)) htube hcan' (hok.alone _ _ _ _ _ _ hf.quiet htube hcan')
    (fun j p hj => hf.quiet j a p hj) (hok.onePath _ _ _ hf.quiet hctl) (hok.dims _ _ hctl)
  refine ⟨c, hcn, ?_⟩
  rintro h st rfl
  have hag : ({ t with inits := rs } : Trans S G K V D).agent ∈ n.body.agents.map Prod.fst := by
    simp only
    rw [t1]; exact List.mem_map.2 ⟨_, hctl.1, rfl⟩
  obtain ⟨w1, w2, w3, w4, w5, w6⟩ := mkChild_spec hf.wf.names hc hag
  obtain ⟨⟨v1, v2⟩, x0, hx0, segs0, s0, v3, v4, v5⟩ := mkChild_more hf.wf.names hc
  simp only [t1] at w3 w4 w5 w6
  refine ⟨w1.trans he.agents, w2.trans he.static, he.statics, ?_, by omega, v1, by rw [← he.agents]; exact v2, ?_, ?_⟩
  · obtain ⟨segs', g1, g2⟩ := hf.good x0 (by rw [← he.agents]; exact hx0)
    rw [v3] at g1; injection g1 with g1; subst g1
    simp only
    rw [v5, (g2.seg steps s0 v4).1, hround]
  · intro o ho
    simp only
    rw [w3, Dict.get?_set]
    by_cases e : a = o.1
    · rw [if_pos e, e]
    · rw [if_neg e, he.mode o ho, (hother o.1 (Ne.symm e)).1]
  · intro o ho
    by_cases e : o.1 = a
    · right
      rw [e]
      refine ⟨w5, rs, w4, ?_, hflow, rect, hr, hpost⟩
      -- the dimension
      obtain ⟨segs, g1, g2⟩ := hf.good (a, dl) hab
      have hlt : steps < segs.length := by rw [g2.len]; omega
      have hin := g2.inside steps _ (by rw [Nat.zero_add]; exact List.getElem?_eq_getElem hlt)
      have hd := (g2.seg steps _ (List.getElem?_eq_getElem hlt)).2
      obtain ⟨state, mode, static, q1, q2, q3, _⟩ := hcan
      obtain ⟨x, hx, hxe⟩ := List.mem_map.1 q2
      simp only [Prod.mk.injEq] at hxe
      have hst : φ.path a steps = state := by rw [← hxe.1, hxe.2.1]
      have hdl : dl.cont.length = d a := by
        have e1 := hin.1.length_eq
        simp only at e1
        rw [hst] at e1
        rw [← q3, ← e1]; exact hd.1
      intro r hr'
      rw [← hdl]; exact hrs r hr'
    · left
      obtain ⟨segs', s', rest', z1, z2, z3, _⟩ := w6 o (by rw [he.agents]; exact ho) e
      refine ⟨_, z3, ?_⟩
      obtain ⟨segs'', g1, g2⟩ := hf.good o ho
      rw [z1] at g1; injection g1 with g1; subst g1
      refine ⟨by rw [List.length_drop, g2.len]; omega, ?_, ?_⟩
      · intro j s hs
        rw [List.getElem?_drop] at hs
        obtain ⟨q1, q2⟩ := g2.seg _ _ hs
        exact ⟨by rw [q1]; push_cast; ring, q2⟩
      · intro j s hs
        rw [List.getElem?_drop] at hs
        rw [(hother o.1 e).2 j]
        refine g2.inside (steps + j) s ?_
        rw [← hs]
        congr 1; omega

theorem partStep_safe {n : Engine.Work (Body S G K V D) (Trace K)} {remain : ℚ} (h : (partStep w n remain).hits = .ok none) :
    ∃ res, verifyPart w n remain = .ok res ∧ res.hits = none ∧ (partStep w n remain).next = res.next ∧ (partStep w n remain).trace = res.trace := by
  unfold partStep at h ⊢
  cases hv : verifyPart w n remain with
  | error e => rw [hv] at h; cases h
  | ok res =>
    rw [hv] at h
    simp only [Except.ok.injEq] at h
    exact ⟨res, rfl, h, rfl, rfl⟩

/-- If the node is safe, an assert whose precondition is certainly true is satisfied at every step that the search reaches. -/
theorem part_scan_safe {remain : ℚ} (wf : Body.WF n.body) (hfill : fillParts w n.body n.start remain n.trace = .ok full)
    {res : Engine.Result (Body S G K V D) (Trace K) (Option (Dict String (List String)))} (hrun : verifyPart w n remain = .ok res) (hsafe : res.hits = none)
    (has : AssertsFaithful M w.toWorld n.body full)
    {i : Nat} {snap : Snap K V} {a : String} {dl : Logic S G K V D} {x : Assertion S} (hstep : HasStep full i)
    (hreach : Reached w.toWorld n.body full i) (hctl : Controlled n.body a dl) (hx : x ∈ dl.asserts) (hin : InTube n.body full i snap)
    (hpre : M.pre x a snap) : M.cond x a snap := by
  obtain ⟨sd, hsd, hin⟩ := hin
  obtain ⟨full', hfill', h⟩ := (bind_ok_iff _ _ _).1 hrun
  rw [hfill] at hfill'
  injection hfill' with hfill'
  subst hfill'
  obtain ⟨found, hfound, h⟩ := (bind_ok_iff _ _ _).1 h
  unfold getTransitions at hfound
  obtain ⟨prep, hprep, hfound⟩ := (bind_ok_iff _ _ _).1 hfound
  obtain ⟨N, hN, hfound⟩ := (bind_ok_iff _ _ _).1 hfound
  obtain ⟨sc, hsc, hfound⟩ := (bind_ok_iff _ _ _).1 hfound
  rcases scan_reaches wf.names hprep _ _ _ _ hsc i (Nat.zero_le _) (by rw [Nat.zero_add]; exact (traceLength_spec _ _ hN i).2 hstep)
      (fun j a p _ hj => hreach.1 j a p hj)
      (fun k _ hk hh => by
        rcases hh with hh | ⟨j, a, p, _, hj, hh⟩
        · exact absurd rfl hh
        · exact hreach.2 j k a p hj hk hh) with ⟨j, s, _, hj, hs, hne, rfl⟩ | ⟨s, hs, hnone, -⟩
  · cases hfound
    dsimp only at h
    split at h
    · cases h; cases hsafe
    · obtain ⟨cut, hcut, rfl⟩ := (map_ok_iff _ _ _).1 h
      cases hsafe
  · have hsp := checkSample_spec wf.names hprep hs
    obtain ⟨⟨r, hr⟩, hcond⟩ := hsp.evaluated a dl x sd (mem_controlled.2 hctl) hx hsd
    have hpre := has.pre _ _ _ _ _ r hctl hx hsd hr ⟨_, hin, hpre⟩ ▸ hr
    obtain ⟨q, hq⟩ := hcond hpre
    by_cases hne : q = (true, true)
    · subst hne
      exact has.cond i a dl x sd hctl hx hsd hq snap hin
    · obtain ⟨ls, hls, _⟩ := (hsp.fails a x.label).2 ⟨dl, x, mem_controlled.2 hctl, rfl, hx, dl, sd, hctl, hx, hsd, hpre, q, hq, hne⟩
      rw [hnone] at hls
      cases hls

/-- One node: it has the modes of the phase, its tubes contain the states, the states are safe, and a child continues the execution. -/
theorem part_node {cfg : Engine.Cfg (Body S G K V D) (Trace K) Hits} (wf : Body.WF b) (hsound : SoundTubes w.toWorld flow dt N d) (hparts : 0 < w.parts)
    (hdt : 0 < dt) (hround : ∀ k : Nat, w.round10 ((k : ℚ) * dt) = (k : ℚ) * dt)
    (hround' : ∀ k : Nat, cfg.round10 ((k : ℚ) * dt) = (k : ℚ) * dt ∧ cfg.roundN ((k : ℚ) * dt) = (k : ℚ) * dt)
    (hcfg : cfg.step = partStep w) (hhor : cfg.horizon = (N : ℚ) * dt)
    (hok : ∀ n full, PVisited w cfg b n → fillParts w n.body n.start (cfg.round10 (cfg.horizon - n.start)) n.trace = .ok full → PartOK M w n full)
    {m : Nat} {t : RTree (Label (Body S G K V D) (Trace K) Hits)} (hvis : PVisited w cfg b n)
    (hent : PEntered b flow dt N d n φ g) (hexp : Explores (problem cfg false) n.height n.start n.body n.trace t)
    (hh : ∀ mh, cfg.maxHeight = some mh → n.height + 1 < mh) (hhits : t.label.hits = .ok none) (hq : Quiet M b φ m) :
    (∀ a ∈ b.agents.map Prod.fst, Dict.get? t.label.body.mode a = some (φ.mode a)) ∧
    (∀ k, k ≤ m → g + k < N → ∀ a ∈ b.agents.map Prod.fst, ∃ segs, Dict.get? t.label.trace a = some segs ∧
      ∃ s ∈ segs, s.t0 = ((g + k : Nat) : ℚ) * dt ∧ Inside (φ.path a k) s.box) ∧
    ((∀ full, fillParts w n.body n.start (cfg.round10 (cfg.horizon - n.start)) n.trace = .ok full → AssertsFaithful M w.toWorld n.body full) →
      ∀ k, k ≤ m → g + k < N → SafeState M b (φ.snap b k)) ∧
    ∀ φ', Switches M w.toWorld b flow φ m φ' → g + m < N → ∃ n', ∃ t' ∈ t.kids, PVisited w cfg b n' ∧
      PEntered b flow dt N d n' φ' (g + m) ∧ n'.height = n.height + 1 ∧ Explores (problem cfg false) n'.height n'.start n'.body n'.trace t' := by
  have hN := hent.before
  have hsub : cfg.horizon - n.start = ((N - g : Nat) : ℚ) * dt := by
    rw [hhor, hent.start, Nat.cast_sub (by omega)]; ring
  have hremain : cfg.round10 (cfg.horizon - n.start) = ((N - g : Nat) : ℚ) * dt := by rw [hsub, (hround' _).1]
  have hexplored : (problem cfg false).explored n.height n.start := by
    refine ⟨hh, ?_⟩
    rw [hremain]
    have : (0 : ℚ) < ((N - g : Nat) : ℚ) := by
      rw [Nat.cast_pos]; omega
    positivity
  obtain ⟨_, _, e3, e4 | ⟨_, e5, e6, e7⟩⟩ := Engine.explores_node hexp
  · exact absurd hexplored e4.1
  have hwork : (⟨n.height, n.start, n.body, n.trace⟩ : Engine.Work (Body S G K V D) (Trace K)) = n := rfl
  have hexpand : (problem cfg false).expand n = { partStep w n (((N - g : Nat) : ℚ) * dt) with hits := (partStep w n (((N - g : Nat) : ℚ) * dt)).hits } := by
    simp only [problem, hcfg, hremain]
    rfl
  rw [hwork, hexpand] at e5 e6 e7
  dsimp only at e5 e6 e7
  rw [hhits] at e6
  obtain ⟨res, r1, r2, r3, r4⟩ := partStep_safe e6.symm
  obtain ⟨full, hfill, _⟩ := (bind_ok_iff _ _ _).1 r1
  have hnok := hok n full hvis (by rw [hremain]; exact hfill)
  have hf := phase_filled wf hsound hent hfill hnok hq
  refine ⟨?_, ?_, ?_, ?_⟩
  · intro a ha
    obtain ⟨x, hx, rfl⟩ := List.mem_map.1 ha
    rw [e3]; exact hent.mode x hx
  · intro k hk hkN a ha
    obtain ⟨x, hx, rfl⟩ := List.mem_map.1 ha
    rw [e5, r4]
    exact part_kept hent hf hfill r1 r2 k hk hkN x hx
  · intro has k hk hkN a dl x hctl hx hpre
    exact part_scan_safe hf.wf hfill r1 r2 (has full (by rw [hremain]; exact hfill)) (hf.hasStep k hkN) (hf.reached k hk)
      ⟨by rw [hent.agents]; exact hctl.1, hctl.2⟩ hx (hf.inTube k hkN) hpre
  · intro φ' hsw hmN
    obtain ⟨c, hc, hent'⟩ := part_follow hround hparts hent hf hfill hnok r1 r2 hsw hmN
    have hst : cfg.roundN c.start = c.start := by
      have := (hent' 0 c.start rfl).start
      simp only at this
      rw [this, (hround' _).2]
    have hc' : c ∈ (partStep w n (((N - g : Nat) : ℚ) * dt)).next := by rw [r3]; exact hc
    obtain ⟨t', ht', hx'⟩ := forall₂_mem_left e7 hc'
    exact ⟨⟨n.height + 1, cfg.roundN c.start, c.body, c.trace⟩, t', ht', .child hvis (by rw [hremain]; exact hc'),
      hent' _ _ hst, rfl, hx'⟩

/-- The tree follows the execution. -/
theorem part_tracks {cfg : Engine.Cfg (Body S G K V D) (Trace K) Hits} (wf : Body.WF b) (hsound : SoundTubes w.toWorld flow dt N d) (hparts : 0 < w.parts)
    (hdt : 0 < dt) (hround : ∀ k : Nat, w.round10 ((k : ℚ) * dt) = (k : ℚ) * dt)
    (hround' : ∀ k : Nat, cfg.round10 ((k : ℚ) * dt) = (k : ℚ) * dt ∧ cfg.roundN ((k : ℚ) * dt) = (k : ℚ) * dt)
    (hcfg : cfg.step = partStep w) (hhor : cfg.horizon = (N : ℚ) * dt)
    (hok : ∀ n full, PVisited w cfg b n → fillParts w n.body n.start (cfg.round10 (cfg.horizon - n.start)) n.trace = .ok full → PartOK M w n full)
    (ex : List (Phase K V × Nat)) (hex : Execution M w.toWorld b flow ex) :
    ∀ (φ : Phase K V) (m : Nat) (rest : List (Phase K V × Nat)), ex = (φ, m) :: rest →
    ∀ (n : Engine.Work (Body S G K V D) (Trace K)) (g : Nat) (t : RTree (Label (Body S G K V D) (Trace K) Hits)), PVisited w cfg b n →
      PEntered b flow dt N d n φ g → Explores (problem cfg false) n.height n.start n.body n.trace t →
      (∀ mh, cfg.maxHeight = some mh → n.height + ex.length < mh) → g + (ex.dropLast.map Prod.snd).sum < N →
      (∀ u k, RTree.Below t u k → u.label.hits = .ok none) →
      ∃ us, PathIn t us ∧ Tracks (b.agents.map Prod.fst) dt N g ex us := by
  induction hex with
  | @last φ0 m0 hq =>
    intro φ m rest heq n g t hvis hent hexp hh hN hsafe
    cases heq
    obtain ⟨h1, h2, _⟩ := part_node wf hsound hparts hdt hround hround' hcfg hhor hok hvis hent hexp (fun mh hm => by simpa using hh mh hm)
      (hsafe t 0 (.refl t)) hq
    exact ⟨[t.label], .root, .cons h1 h2 .nil⟩
  | @switch φ0 m0 φ1 m1 rest1 hq hsw _ ih =>
    intro φ m rest heq n g t hvis hent hexp hh hN hsafe
    cases heq
    have hsum : m0 + (((φ1, m1) :: rest1).dropLast.map Prod.snd).sum = (((φ0, m0) :: (φ1, m1) :: rest1).dropLast.map Prod.snd).sum := by
      simp
    obtain ⟨h1, h2, _, h3⟩ := part_node wf hsound hparts hdt hround hround' hcfg hhor hok hvis hent hexp (fun mh hm => by
      have := hh mh hm
      simp only [List.length_cons] at this; omega) (hsafe t 0 (.refl t)) hq
    obtain ⟨n', t', ht', hvis', hent', hheight, hexp'⟩ := h3 φ1 hsw (by omega)
    obtain ⟨us, u1, u2⟩ := ih φ1 m1 rest1 rfl n' (g + m0) t' hvis' hent' hexp' (fun mh hm => by
      have := hh mh hm
      simp only [List.length_cons] at this ⊢; omega) (by omega) (fun u k hb => by
        cases t with
        | node dd kids => exact hsafe u (k + 1) (.step ht' hb))
    exact ⟨t.label :: us, .down ht' u1, .cons h1 h2 u2⟩

/-- All states of the execution are safe. -/
theorem part_safe {cfg : Engine.Cfg (Body S G K V D) (Trace K) Hits} (wf : Body.WF b) (hsound : SoundTubes w.toWorld flow dt N d) (hparts : 0 < w.parts)
    (hdt : 0 < dt) (hround : ∀ k : Nat, w.round10 ((k : ℚ) * dt) = (k : ℚ) * dt)
    (hround' : ∀ k : Nat, cfg.round10 ((k : ℚ) * dt) = (k : ℚ) * dt ∧ cfg.roundN ((k : ℚ) * dt) = (k : ℚ) * dt)
    (hcfg : cfg.step = partStep w) (hhor : cfg.horizon = (N : ℚ) * dt)
    (hok : ∀ n full, PVisited w cfg b n → fillParts w n.body n.start (cfg.round10 (cfg.horizon - n.start)) n.trace = .ok full →
      PartOK M w n full ∧ AssertsFaithful M w.toWorld n.body full)
    (ex : List (Phase K V × Nat)) (hex : Execution M w.toWorld b flow ex) :
    ∀ (φ : Phase K V) (m : Nat) (rest : List (Phase K V × Nat)), ex = (φ, m) :: rest →
    ∀ (n : Engine.Work (Body S G K V D) (Trace K)) (g : Nat) (t : RTree (Label (Body S G K V D) (Trace K) Hits)), PVisited w cfg b n →
      PEntered b flow dt N d n φ g → Explores (problem cfg false) n.height n.start n.body n.trace t →
      (∀ mh, cfg.maxHeight = some mh → n.height + ex.length < mh) →
      (∀ u k, RTree.Below t u k → u.label.hits = .ok none) →
      ∀ k s, Occurs b ex k s → g + k < N → SafeState M b s := by
  have hok1 := fun n full hv hf => (hok n full hv hf).1
  induction hex with
  | @last φ0 m0 hq =>
    intro φ m rest heq n g t hvis hent hexp hh hsafe k s hocc hk
    cases heq
    obtain ⟨_, _, h1, _⟩ := part_node wf hsound hparts hdt hround hround' hcfg hhor hok1 hvis hent hexp (fun mh hm => by simpa using hh mh hm)
      (hsafe t 0 (.refl t)) hq
    cases hocc with
    | here h => exact h1 (fun full hf => (hok n full hvis hf).2) k h hk
    | later h => cases h
  | @switch φ0 m0 φ1 m1 rest1 hq hsw _ ih =>
    intro φ m rest heq n g t hvis hent hexp hh hsafe k s hocc hk
    cases heq
    obtain ⟨_, _, h1, h3⟩ := part_node wf hsound hparts hdt hround hround' hcfg hhor hok1 hvis hent hexp (fun mh hm => by
      have := hh mh hm
      simp only [List.length_cons] at this; omega) (hsafe t 0 (.refl t)) hq
    cases hocc with
    | here h => exact h1 (fun full hf => (hok n full hvis hf).2) k h hk
    | @later _ _ _ k' _ h =>
      obtain ⟨n', t', ht', hvis', hent', hheight, hexp'⟩ := h3 φ1 hsw (by omega)
      refine ih φ1 m1 rest1 rfl n' (g + m0) t' hvis' hent' hexp' (fun mh hm => by
        have := hh mh hm
        simp only [List.length_cons] at this ⊢; omega) (fun u k hb => by
          cases t with
          | node dd kids => exact hsafe u (k + 1) (.step ht' hb)) k' s h (by omega)

end Verif.Proofs.Ver
