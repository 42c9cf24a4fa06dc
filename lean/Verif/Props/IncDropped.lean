import Verif.Props.Incremental

/-! C34: which cached segments are dropped after the decision logic changed. -/

set_option autoImplicit false

namespace Verif.Props
open Verif.Inc Verif.Proofs.Inc

variable {K T C A : Type} [DecidableEq C] [DecidableEq A]

/-- Path number `i` among those that assign the variable of `r` is `r` in the old decision logic; in the new one, there is none or one with another guard. -/
def RemovedAt (o n : ILogic C A) (r : IPath C A) : Prop :=
  ∃ i : Nat, (o.paths.filter fun p => decide (p.var = r.var))[i]? = some r ∧
    ∀ q : IPath C A, (n.paths.filter fun p => decide (p.var = r.var))[i]? = some q → q.condVeri ≠ r.condVeri

theorem diffPaths_only : ∀ {os ns : List (IPath C A)} {d : PDiff C A}, diffPaths os ns = .ok d → ∀ r ∈ d.removed,
    ∃ i : Nat, os[i]? = some r ∧ ∀ q : IPath C A, ns[i]? = some q → q.condVeri ≠ r.condVeri
  | [], [], _, h, r, hr => by cases h; cases hr
  | [], _ :: _, _, h, _, _ => by cases h
  | a :: os, [], d, h, r, hr => by
    obtain ⟨d', h', rfl⟩ := (map_ok_iff _ _ _).1 h
    rcases List.mem_cons.1 hr with rfl | hr
    · exact ⟨0, rfl, fun q hq => by cases hq⟩
    · obtain ⟨i, h1, h2⟩ := diffPaths_only h' r hr
      exact ⟨i + 1, h1, fun q hq => by cases hq⟩
  | a :: os, b :: ns, d, h, r, hr => by
    obtain ⟨d', h', rfl⟩ := (map_ok_iff _ _ _).1 h
    have later : r ∈ d'.removed → ∃ i : Nat, (a :: os)[i]? = some r ∧ ∀ q : IPath C A, (b :: ns)[i]? = some q → q.condVeri ≠ r.condVeri := by
      intro hr
      obtain ⟨i, h1, h2⟩ := diffPaths_only h' r hr
      exact ⟨i + 1, h1, h2⟩
    by_cases hc : a.condVeri ≠ b.condVeri
    · rw [if_pos hc] at hr
      rcases List.mem_cons.1 hr with rfl | hr
      · exact ⟨0, rfl, fun q hq => by cases hq; exact hc.symm⟩
      · exact later hr
    · rw [if_neg hc] at hr
      refine later ?_
      split at hr <;> exact hr

theorem diffLogic_only {o n : ILogic C A} {d : PDiff C A} (h : diffLogic o n = .ok d) (r : IPath C A) (hr : r ∈ d.removed) : RemovedAt o n r := by
  unfold diffLogic at h
  dsimp only at h
  split at h
  · obtain ⟨ds, hds, rfl⟩ := (map_ok_iff _ _ _).1 h
    obtain ⟨d, hd, hrd⟩ := List.mem_flatMap.1 hr
    obtain ⟨⟨v, l⟩, hvl, hdp⟩ := forall₂_mem_right ((mapM_ok_iff _ _ _).1 hds) hd
    obtain ⟨hnd, ho⟩ := groupByVar_spec o.paths
    obtain ⟨-, hn⟩ := groupByVar_spec n.paths
    have hl := ((ho v l).1 (Dict.get?_of_mem hnd hvl)).2
    have hng : (Dict.get? (groupByVar n.paths) v).getD [] = n.paths.filter (fun p => decide (p.var = v)) := by
      cases hg : Dict.get? (groupByVar n.paths) v with
      | some l => exact ((hn _ _).1 hg).2
      | none =>
        by_contra hne
        have := (hn v _).2 ⟨fun h => hne (by rw [h]; rfl), rfl⟩
        rw [hg] at this; cases this
    dsimp only at hdp
    rw [hng, hl] at hdp
    obtain ⟨i, h1, h2⟩ := diffPaths_only hdp r hrd
    have hv : r.var = v := by simpa using (List.mem_filter.1 (List.mem_of_getElem? h1)).2
    subst hv
    exact ⟨i, h1, h2⟩
  · cases h

/-- **C34**, what is dropped: a cached segment is kept, unless one of its transitions was made by a path (the same guard and the same assignment) that was removed from
the decision logic of the agent or now has another guard. -/
theorem C34_dropped_partial (old new : Dict String (ILogic C A)) (cached kept : Dict String (CSeg K T C A)) (added : List (String × IPath C A))
    (run : toSimulate old new cached = .ok (kept, added)) (id : String) (s : CSeg K T C A) (hs : (id, s) ∈ cached) :
    (∃ s', (id, s') ∈ kept ∧ s'.trace = s.trace) ∨
    ∃ o n, Dict.get? old id = some o ∧ Dict.get? new id = some n ∧ ∃ t ∈ s.trans, ∃ p ∈ t.paths, ∃ r ∈ o.paths, r.cond = p.cond ∧ r.val = p.val ∧ RemovedAt o n r := by
  unfold toSimulate at run
  split at run
  · obtain ⟨rs, hrs, h⟩ := (map_ok_iff _ _ _).1 run
    have hrs := (mapM_ok_iff _ _ _).1 hrs
    injection h with h1 h2; subst h1 h2
    obtain ⟨r, hr, hrr⟩ := forall₂_mem_left hrs hs
    obtain ⟨r', hr', rfl⟩ := (map_ok_iff _ _ _).1 hrr
    have kept : ∀ s', r'.1 = some s' → s'.trace = s.trace → ∃ s', (id, s') ∈ rs.filterMap (fun r => r.2.1.map (fun s => (r.1, s))) ∧ s'.trace = s.trace := by
      intro s' e1 e2
      refine ⟨s', List.mem_filterMap.2 ⟨_, hr, ?_⟩, e2⟩
      dsimp only
      rw [e1]; rfl
    dsimp only at hr'
    unfold reviewSegment at hr'
    split at hr'
    · cases hr'
      exact .inl (kept s rfl rfl)
    · split at hr'
      · rename_i o n ho hn
        split at hr'
        · obtain ⟨d, hd, rfl⟩ := (map_ok_iff _ _ _).1 hr'
          dsimp only at kept
          split at kept
          · rename_i hany
            right
            obtain ⟨t, ht, hany⟩ := List.any_eq_true.1 hany
            obtain ⟨p, hp, hany⟩ := List.any_eq_true.1 hany
            obtain ⟨x, hx, hsame⟩ := List.any_eq_true.1 hany
            have hrem := diffLogic_only hd x hx
            unfold IPath.same at hsame
            rw [Bool.and_eq_true, decide_eq_true_eq, decide_eq_true_eq] at hsame
            obtain ⟨i, h1, h2⟩ := hrem
            exact ⟨o, n, ho, hn, t, ht, p, hp, x, (List.mem_filter.1 (List.mem_of_getElem? h1)).1, hsame.1.symm, hsame.2.symm, i, h1, h2⟩
          · exact .inl (kept _ rfl rfl)
        · cases hr'
      · cases hr'
  · cases run

set_option synthInstance.maxSize 2000 in
open IncEx in
/-- Two branches with the same guard, of which the second changes its guard: the segment with a transition of the first one is kept. -/
example : toSimulate (logic [near, near']) (logic [near, vnear]) [("car", seg near "Brake")] = .ok ([("car", seg near "Brake")], [("car", vnear)]) := by
  decide +kernel

end Verif.Props
