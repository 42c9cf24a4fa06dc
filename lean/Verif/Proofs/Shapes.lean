import Verif.Proofs.Execution2

/-!
The number of coordinates of rectangles, and of values of modes, is the same at all nodes that `verify` reaches.
-/

set_option autoImplicit false
set_option linter.unusedSectionVars false

namespace Verif.Proofs.Ver

open Verif.Ver Verif.Ver.Spec

variable {S G K V D : Type} [Field K] [LinearOrder K] [DecidableEq V]

/-- Resets do not change the number of values of a mode. -/
theorem applyReset_modes {sh : K → Rst.Text} {rd : Rst.Text → Option K} {contVars discVars : List String} {mode : List V} {rect rect' : Rect.Box K}
    {items : List (Rst.Item K V D)} {dests : List (List V)} (h : Rst.applyReset sh rd contVars discVars mode rect items = .ok (dests, rect')) :
    ∀ m ∈ dests, m.length = mode.length := by
  unfold Rst.applyReset at h
  obtain ⟨r, hr, e⟩ := (map_ok_iff _ _ _).1 h
  simp only [Prod.mk.injEq] at e
  rw [← e.1]
  have hl : r.1.length = mode.length := by
    refine foldlM_inv (P := fun (r : List (List V) × Rect.Box K) => r.1.length = mode.length) hr (by simp) ?_
    intro acc acc' it _ ih hstep
    unfold Rst.applyOne at hstep
    split at hstep
    · split at hstep
      · cases hstep
      · split at hstep
        · cases hstep
        · injection hstep with hstep; subst hstep
          simpa using ih
    · split at hstep
      · cases hstep
      · split at hstep
        · obtain ⟨q, _, hstep⟩ := (bind_ok_iff _ _ _).1 hstep
          split at hstep
          · injection hstep with hstep; subst hstep; exact ih
          · cases hstep
        · cases hstep
  intro m hm
  rw [mem_product] at hm
  rw [hm.length_eq, hl]

/-- The rectangles and modes of a node have the numbers of coordinates and values of the scenario. -/
structure Shaped (b : Body S G K V D) (d : String → Nat) (n : Engine.Work (Body S G K V D) (Trace K)) : Prop where
  agents : n.body.agents = b.agents
  static : n.body.static = b.static
  init   : ∀ a ∈ b.agents, ∀ rs, Dict.get? n.body.init a.1 = some rs → ∀ r ∈ rs, Dim (d a.1) r
  trace  : ∀ a ∈ b.agents, ∀ segs, Dict.get? n.trace a.1 = some segs → ∀ s ∈ segs, Dim (d a.1) s.box
  mode   : ∀ a ∈ b.agents, ∀ m, Dict.get? n.body.mode a.1 = some m → ∃ m0, Dict.get? b.mode a.1 = some m0 ∧ m.length = m0.length

theorem full_dim {w : World S K V} {b : Body S G K V D} {d : String → Nat} {n : Engine.Work (Body S G K V D) (Trace K)} {remain : ℚ} {full : Trace K}
    (hwf : (b.agents.map Prod.fst).Nodup)
    (hdims : ∀ a m c h, Dim (d a) c → ∀ s ∈ w.bloat a m c h, Dim (d a) s.box) (hs : Shaped b d n)
    (hfill : fillTubes w n.body n.start remain n.trace = .ok full) :
    ∀ a ∈ b.agents, ∀ segs, Dict.get? full a.1 = some segs → ∀ s ∈ segs, Dim (d a.1) s.box := by
  obtain ⟨h1, h2⟩ := fillTubes_spec (by rw [hs.agents]; exact hwf) hfill
  intro a ha segs hsegs s hm
  cases hg : Dict.get? n.trace a.1 with
  | some segs' =>
    have := h1 _ _ hg
    rw [hsegs] at this
    cases this
    exact hs.trace a ha _ hg s hm
  | none =>
    obtain ⟨m, i, t, q1, q2, ⟨t0, q3, rfl⟩, q4⟩ := h2 a (by rw [hs.agents]; exact ha) hg
    rw [hsegs] at q4
    cases q4
    obtain ⟨s', hs', rfl⟩ := List.mem_map.1 hm
    obtain ⟨⟨c, _, h3⟩, _⟩ := fullTube_spec (fun c hc s => hdims a.1 m c remain hc s) (hs.init a ha _ q2) q3
    obtain ⟨k, hk⟩ := List.mem_iff_getElem?.1 hs'
    exact (h3.seg k s' hk).1

theorem shaped_of_visited {w : World S K V} {cfg : Engine.Cfg (Body S G K V D) (Trace K) Hits} {b : Body S G K V D} {d : String → Nat}
    (wf : Body.WF b) (hdims : ∀ a m c h, Dim (d a) c → ∀ s ∈ w.bloat a m c h, Dim (d a) s.box)
    (hinit : ∀ a ∈ b.agents, ∀ rs, Dict.get? b.init a.1 = some rs → ∀ r ∈ rs, Dim (d a.1) r)
    {n : Engine.Work (Body S G K V D) (Trace K)} (h : Visited w cfg b n) : Shaped b d n := by
  induction h with
  | root => exact ⟨rfl, rfl, hinit, fun a _ segs h => (by cases h), fun a _ m h => ⟨m, h, rfl⟩⟩
  | @child n c _ hc ih =>
    unfold verStep at hc
    split at hc
    · rename_i res hres
      have hwf : Body.WF n.body := ⟨by rw [ih.agents]; exact wf.names, by rw [ih.agents]; exact wf.logics⟩
      obtain ⟨full, hfull, h⟩ := (bind_ok_iff _ _ _).1 hres
      have hfd := full_dim wf.names hdims ih hfull
      obtain ⟨g, hg, h⟩ := (bind_ok_iff _ _ _).1 h
      match g, h with
      | .asserts a idx, h =>
        dsimp only at h
        split at h
        · cases h
        · obtain ⟨cut, _, rfl⟩ := (map_ok_iff _ _ _).1 h
          simp at hc
      | .trans [], h =>
        injection h with h; subst h; simp at hc
      | .trans (t :: ts), h =>
        obtain ⟨cs, hcs, h⟩ := (bind_ok_iff _ _ _).1 h
        obtain ⟨cut, _, rfl⟩ := (map_ok_iff _ _ _).1 h
        obtain ⟨l, hl, hcl⟩ := List.mem_flatten.1 hc
        obtain ⟨x, hx, rfl⟩ := List.mem_map.1 hl
        obtain ⟨tr, hmem, htr⟩ := forall₂_mem_right ((mapM_ok_iff _ _ _).1 hcs) hx
        obtain ⟨evs, hperm, -, hjust, -⟩ := found_spec hwf hg
        have hgr := ((mem_permitted _ _ hperm tr).1 hmem).1
        obtain ⟨e, rest, k, e1, e2, e3, -⟩ := grouped_sound _ _ hgr
        have hev : ∀ y ∈ e :: rest, y ∈ evs ∧ y.agent = tr.agent ∧ y.dest = tr.dest := by
          intro y hy
          rw [e1, List.mem_filter] at hy
          simp only [Bool.and_eq_true, decide_eq_true_eq] at hy
          exact ⟨hy.1, hy.2.1, hy.2.2.2⟩
        unfold childOf at htr
        split at htr
        · split at htr
          · injection htr with htr; subst htr; simp at hcl
          · rename_i start stop _ _ dest hdest
            obtain ⟨c', hc', rfl⟩ := (map_ok_iff _ _ _).1 htr
            rw [List.mem_singleton.1 hcl]
            obtain ⟨f1, f2, f3⟩ := hev e (by simp)
            have hin : tr.agent ∈ n.body.agents.map Prod.fst := by
              obtain ⟨dl, _, _, _, _, _, j1, _⟩ := hjust e f1
              rw [← f2]
              exact List.mem_map.2 ⟨_, j1.1, rfl⟩
            obtain ⟨c1, c2, c3, c4, c5, c6⟩ := mkChild_spec hwf.names hc' hin
            refine ⟨c1.trans ih.agents, c2.trans ih.static, ?_, ?_, ?_⟩
            · intro a ha rs hrs r hr
              dsimp only at hrs
              by_cases hat : a.1 = tr.agent
              · rw [hat, c4] at hrs
                cases hrs
                rw [e2] at hr
                obtain ⟨y, hy, rfl⟩ := List.mem_map.1 hr
                obtain ⟨g1, g2, g3⟩ := hev y hy
                obtain ⟨dl, sel, segs, m, seg, dests, j1, _, _, j4, _, j6, j7, _⟩ := hjust y g1
                refine applyReset_dim j7 ?_
                have := hfd a ha segs (by rw [hat, ← g2]; exact j4) seg (List.mem_of_getElem? j6)
                exact this
              · obtain ⟨segs, s, rest', k1, k2, k3, k4⟩ := c6 a (by rw [ih.agents]; exact ha) hat
                rw [k4] at hrs
                cases hrs
                rw [List.mem_singleton] at hr
                subst hr
                exact hfd a ha segs k1 s (List.mem_of_mem_drop (by rw [k2]; simp))
            · intro a ha segs' hs' s hs
              dsimp only at hs'
              by_cases hat : a.1 = tr.agent
              · rw [hat, c5] at hs'; cases hs'
              · obtain ⟨segs, s0, rest', k1, k2, k3, k4⟩ := c6 a (by rw [ih.agents]; exact ha) hat
                rw [k3] at hs'
                cases hs'
                exact hfd a ha segs k1 s (List.mem_of_mem_drop hs)
            · intro a ha m hm
              dsimp only at hm
              rw [c3] at hm
              by_cases hat : a.1 = tr.agent
              · rw [hat, Dict.get?_set_self] at hm
                cases hm
                obtain ⟨dl, sel, segs, m, seg, dests, j1, _, _, j4, j5, j6, j7, j8⟩ := hjust e f1
                rcases j8 with ⟨j8, _⟩ | ⟨dd, j8, j9⟩
                · rw [f3, hdest] at j8; cases j8
                · rw [f3, hdest] at j9
                  cases j9
                  obtain ⟨m0, l1, l2⟩ := ih.mode a ha m (by rw [hat, ← f2]; exact j5)
                  exact ⟨m0, l1, (applyReset_modes j7 _ j8).trans l2⟩
              · rw [Dict.get?_set_ne _ _ _ _ (Ne.symm hat)] at hm
                exact ih.mode a ha m hm
        · cases htr
    · simp at hc

end Verif.Proofs.Ver
