import Verif.Proofs.Incremental

/-! Lemmas on the cache of incremental simulation. -/

set_option autoImplicit false
set_option linter.unusedSectionVars false

namespace Verif.Proofs.Inc

open Verif.Inc

variable {K T C A : Type} [Field K] [LinearOrder K]

/-- `u` created entry number `i`, and what is stored there comes from updates in `us` for the same agent and mode. -/
structure Owned (us : List (Update K T C A)) (u : Update K T C A) (s : CSeg K T C A) : Prop where
  mem   : u ∈ us
  trace : s.trace = u.trace
  trans : ∀ t ∈ s.trans, ∃ v ∈ us, v.agent = u.agent ∧ v.mode = u.mode ∧ t ∈ v.cached

/-- The entries of the cache belong to the updates that created them. -/
def Owners (eps : K) (us : List (Update K T C A)) (c : SimCache K T C A) : Prop :=
  ∃ own : List (Update K T C A), List.Forall₂ (Owned us) own c.segs ∧
    ∀ key ivs i, InCache c.trees key ivs i → ∃ u, own[i]? = some u ∧ key = (u.agent, u.mode) ∧ ivs = u.init.map (fun v => (v - eps, v + eps))

theorem simHit_entry {eps : K} {ord : Order K Nat} (hord : ∀ l, (ord l).Perm l) {c : SimCache K T C A} {agent : String} {mode : List String}
    {init : List K} {inits : Dict String (List K)} {i : Nat} (h : simHit eps ord c agent mode init inits = .ok (some i)) :
    ∃ ivs, InCache c.trees (agent, mode) ivs i ∧ List.Forall₂ (fun (iv : K × K) x => iv.1 ≤ x ∧ x < iv.2) ivs init ∧ i < c.segs.length := by
  unfold simHit at h
  cases hg : Dict.get? c.trees (agent, mode) with
  | none => rw [hg] at h; cases h
  | some t =>
    rw [hg] at h
    obtain ⟨ids, hids, h⟩ := (bind_ok_iff _ _ _).1 h
    obtain ⟨l, hl, h⟩ := (map_ok_iff _ _ _).1 h
    have hl := (mapM_ok_iff _ _ _).1 hl
    cases l with
    | nil => cases h
    | cons e es =>
      injection h with h
      have hm := firstMin_mem (fun (p : Nat × Int) => p.2) es e
      generalize firstMin (fun (p : Nat × Int) => p.2) e es = m at h hm
      obtain ⟨j, hj, hjm⟩ := forall₂_mem_right hl hm
      cases hs : c.segs[j]? with
      | none => rw [hs] at hjm; cases hjm
      | some s =>
        rw [hs] at hjm
        obtain ⟨n, -, hn⟩ := (map_ok_iff _ _ _).1 hjm
        have hji : j = i := by rw [← h, ← hn]
        subst hji
        obtain ⟨ivs, h1, h2⟩ := queryAll_entry hord hids j hj
        refine ⟨ivs, ⟨t, hg, h1⟩, ?_, ?_⟩
        · rw [List.forall₂_map_right_iff] at h2
          refine h2.imp ?_
          rintro iv x ⟨t', ht⟩
          simp only [atPoint, Bool.and_eq_true, decide_eq_true_eq] at ht
          exact ht
        · exact (List.getElem?_eq_some_iff.1 hs).1

theorem Owned.mono {us us' : List (Update K T C A)} {u : Update K T C A} {s : CSeg K T C A} (h : Owned us u s) (hs : ∀ v ∈ us, v ∈ us') :
    Owned us' u s :=
  ⟨hs _ h.mem, h.trace, fun t ht => by
    obtain ⟨v, hv, hr⟩ := h.trans t ht
    exact ⟨v, hs v hv, hr⟩⟩

theorem forall₂_modify {α β : Type} {R : α → β → Prop} {f : β → β} : ∀ {l : List α} {m : List β} {i : Nat}, List.Forall₂ R l m →
    (∀ a b, l[i]? = some a → m[i]? = some b → R a b → R a (f b)) → List.Forall₂ R l (m.modify i f)
  | _, _, _, .nil, _ => by simp
  | a :: l, b :: m, 0, .cons h1 h2, hf => by
    simp only [List.modify_zero_cons]
    exact .cons (hf a b rfl rfl h1) h2
  | a :: l, b :: m, i + 1, .cons h1 h2, hf => by
    simp only [List.modify_succ_cons]
    exact .cons h1 (forall₂_modify h2 (fun a b ha hb => hf a b (by simpa using ha) (by simpa using hb)))

theorem mem_of_mem_dedupBy {α κ : Type} [DecidableEq κ] {f : α → κ} {l : List α} {x : α} (h : x ∈ dedupBy f l) : x ∈ l :=
  (dedupBy_spec f l).1.subset h

theorem procUpdate_owners [DecidableEq C] {eps : K} {ord : Order K Nat} (hord : ∀ l, (ord l).Perm l) {us : List (Update K T C A)}
    {c c' : SimCache K T C A} {u : Update K T C A} (hu : u ∈ us) (hc : Owners eps us c) (h : procUpdate eps ord c u = .ok c') :
    Owners eps us c' := by
  obtain ⟨hit, hhit, h⟩ := (bind_ok_iff _ _ _).1 h
  obtain ⟨own, hown, hin⟩ := hc
  by_cases hn : (u.new && hit.isNone) = true
  · rw [if_pos hn] at h
    obtain ⟨t, ht, rfl⟩ := (map_ok_iff _ _ _).1 h
    refine ⟨own ++ [u], List.rel_append hown (.cons ⟨hu, rfl, fun t ht => ⟨u, hu, rfl, rfl, ht⟩⟩ .nil), ?_⟩
    intro key ivs i hi
    rcases (addEntry_inCache ht _ _ _).1 hi with hi | ⟨rfl, rfl, rfl⟩
    · obtain ⟨v, hv, hr⟩ := hin _ _ _ hi
      exact ⟨v, by rw [List.getElem?_append_left (List.getElem?_eq_some_iff.1 hv).1]; exact hv, hr⟩
    · refine ⟨u, ?_, rfl, rfl⟩
      rw [← hown.length_eq]; simp
  · rw [if_neg hn] at h
    cases hit with
    | none => cases h
    | some i =>
      injection h with h; subst h
      refine ⟨own, forall₂_modify hown ?_, hin⟩
      intro v s hv hs hvs
      refine ⟨hvs.mem, hvs.trace, ?_⟩
      intro t ht
      rcases List.mem_append.1 (mem_of_mem_dedupBy ht) with ht | ht
      · exact hvs.trans t ht
      · obtain ⟨ivs, h1, -, -⟩ := simHit_entry hord hhit
        obtain ⟨w, hw, hkey, -⟩ := hin _ _ _ h1
        rw [hv] at hw; injection hw with hw; subst hw
        injection hkey with hk1 hk2
        exact ⟨u, hu, hk1, hk2, ht⟩

theorem simHistory_owners [DecidableEq C] {eps : K} {ord : Order K Nat} (hord : ∀ l, (ord l).Perm l) {us : List (Update K T C A)}
    {c : SimCache K T C A} (h : simHistory eps ord ⟨[], []⟩ us = .ok c) : Owners eps us c :=
  foldlM_inv (P := Owners eps us) h ⟨[], .nil, fun _ _ _ hi => absurd hi inCache_nil⟩
    (fun _ _ _ ha hb hs => procUpdate_owners hord ha hb hs)

end Verif.Proofs.Inc

namespace Verif.Proofs.Inc

open Verif.Inc

section
variable {K T C A : Type} [DecidableEq C] [DecidableEq A]

theorem groupByVar_spec (ps : List (IPath C A)) :
    ((groupByVar ps).map Prod.fst).Nodup ∧ ∀ v l, Dict.get? (groupByVar ps) v = some l ↔ l ≠ [] ∧ l = ps.filter (fun p => decide (p.var = v)) := by
  unfold groupByVar
  refine foldl_inv_pre (P := fun pre (d : Dict String (List (IPath C A))) => (d.map Prod.fst).Nodup ∧
    ∀ v l, Dict.get? d v = some l ↔ l ≠ [] ∧ l = pre.filter (fun p => decide (p.var = v))) ps [] ⟨by simp, by
      intro v l; simp only [Dict.get?_nil, List.filter_nil, reduceCtorEq, false_iff]; rintro ⟨h, rfl⟩; exact h rfl⟩ ?_
  rintro pre p d - ⟨hn, hd⟩
  refine ⟨Dict.nodup_set hn _ _, ?_⟩
  intro v l
  rw [List.filter_append]
  have hgd : (Dict.get? d p.var).getD [] = pre.filter (fun q => decide (q.var = p.var)) := by
    cases hg : Dict.get? d p.var with
    | some l' => exact ((hd _ _).1 hg).2
    | none =>
      by_contra hne
      have := (hd p.var _).2 ⟨fun h => hne (by rw [h]; rfl), rfl⟩
      rw [hg] at this; cases this
  by_cases hv : p.var = v
  · subst hv
    rw [Dict.get?_set_self, hgd]
    simp only [decide_true, List.filter_cons_of_pos, List.filter_nil, Option.some.injEq]
    constructor
    · rintro rfl; exact ⟨by simp, rfl⟩
    · rintro ⟨-, rfl⟩; rfl
  · rw [Dict.get?_set_ne _ _ _ _ hv, hd v l]
    simp [hv]

theorem diffPaths_removed : ∀ {os ns : List (IPath C A)} {d : PDiff C A}, diffPaths os ns = .ok d →
    ∀ o ∈ os, o ∈ d.removed ∨ ∃ n ∈ ns, n.condVeri = o.condVeri
  | [], [], _, _, o, ho => by cases ho
  | [], _ :: _, _, h, _, _ => by cases h
  | a :: os, [], d, h, o, ho => by
    obtain ⟨d', h', rfl⟩ := (map_ok_iff _ _ _).1 h
    rcases List.mem_cons.1 ho with rfl | ho
    · exact .inl (by simp)
    · rcases diffPaths_removed h' o ho with h | ⟨_, h, _⟩
      · exact .inl (List.mem_cons_of_mem _ h)
      · cases h
  | a :: os, b :: ns, d, h, o, ho => by
    obtain ⟨d', h', rfl⟩ := (map_ok_iff _ _ _).1 h
    by_cases hc : a.condVeri ≠ b.condVeri
    · rw [if_pos hc]
      rcases List.mem_cons.1 ho with rfl | ho
      · exact .inl (by simp)
      · rcases diffPaths_removed h' o ho with h | ⟨n, h, h2⟩
        · exact .inl (List.mem_cons_of_mem _ h)
        · exact .inr ⟨n, List.mem_cons_of_mem _ h, h2⟩
    · rw [if_neg hc]
      have hr : (if a.valVeri ≠ b.valVeri then { d' with changed := b :: d'.changed } else d').removed = d'.removed := by
        split <;> rfl
      rw [hr]
      rcases List.mem_cons.1 ho with rfl | ho
      · exact .inr ⟨b, by simp, (not_not.1 hc).symm⟩
      · rcases diffPaths_removed h' o ho with h | ⟨n, h, h2⟩
        · exact .inl h
        · exact .inr ⟨n, List.mem_cons_of_mem _ h, h2⟩

theorem diffPaths_added : ∀ {os ns : List (IPath C A)} {d : PDiff C A}, diffPaths os ns = .ok d →
    ∀ n ∈ ns, n ∈ d.added ∨ ∃ o ∈ os, o.condVeri = n.condVeri
  | _, [], _, _, o, ho => by cases ho
  | [], _ :: _, _, h, _, _ => by cases h
  | a :: os, b :: ns, d, h, n, hn => by
    obtain ⟨d', h', rfl⟩ := (map_ok_iff _ _ _).1 h
    by_cases hc : a.condVeri ≠ b.condVeri
    · rw [if_pos hc]
      rcases List.mem_cons.1 hn with rfl | hn
      · exact .inl (by simp)
      · rcases diffPaths_added h' n hn with h | ⟨o, h, h2⟩
        · exact .inl (List.mem_cons_of_mem _ h)
        · exact .inr ⟨o, List.mem_cons_of_mem _ h, h2⟩
    · rw [if_neg hc]
      have hr : (if a.valVeri ≠ b.valVeri then { d' with changed := b :: d'.changed } else d').added = d'.added := by
        split <;> rfl
      rw [hr]
      rcases List.mem_cons.1 hn with rfl | hn
      · exact .inr ⟨a, by simp, not_not.1 hc⟩
      · rcases diffPaths_added h' n hn with h | ⟨o, h, h2⟩
        · exact .inl h
        · exact .inr ⟨o, List.mem_cons_of_mem _ h, h2⟩

theorem diffLogic_spec {old new : ILogic C A} {d : PDiff C A} (h : diffLogic old new = .ok d) :
    (∀ o ∈ old.paths, o ∈ d.removed ∨ ∃ n ∈ new.paths, n.var = o.var ∧ n.condVeri = o.condVeri) ∧
    (∀ n ∈ new.paths, n ∈ d.added ∨ ∃ o ∈ old.paths, o.var = n.var ∧ o.condVeri = n.condVeri) := by
  unfold diffLogic at h
  dsimp only at h
  by_cases hk : sameKeys (groupByVar old.paths) (groupByVar new.paths) = true
  · rw [if_pos hk] at h
    obtain ⟨ds, hds, rfl⟩ := (map_ok_iff _ _ _).1 h
    have hds := (mapM_ok_iff _ _ _).1 hds
    obtain ⟨-, ho⟩ := groupByVar_spec old.paths
    obtain ⟨-, hn⟩ := groupByVar_spec new.paths
    have hng : ∀ v, (Dict.get? (groupByVar new.paths) v).getD [] = new.paths.filter (fun p => decide (p.var = v)) := by
      intro v
      cases hg : Dict.get? (groupByVar new.paths) v with
      | some l => exact ((hn _ _).1 hg).2
      | none =>
        by_contra hne
        have := (hn v _).2 ⟨fun h => hne (by rw [h]; rfl), rfl⟩
        rw [hg] at this; cases this
    constructor
    · intro o hom
      have hg := (ho o.var _).2 ⟨List.ne_nil_of_mem (List.mem_filter.2 ⟨hom, by simp⟩), rfl⟩
      obtain ⟨d, hd, hdp⟩ := forall₂_mem_left hds (Dict.mem_of_get? hg)
      dsimp only at hdp
      rw [hng] at hdp
      rcases diffPaths_removed hdp o (List.mem_filter.2 ⟨hom, by simp⟩) with h | ⟨n, hn1, hn2⟩
      · exact .inl (List.mem_flatMap.2 ⟨d, hd, h⟩)
      · obtain ⟨hn3, hn4⟩ := List.mem_filter.1 hn1
        exact .inr ⟨n, hn3, by simpa using hn4, hn2⟩
    · intro n hnm
      have hgn := (hn n.var _).2 ⟨List.ne_nil_of_mem (List.mem_filter.2 ⟨hnm, by simp⟩), rfl⟩
      have hkey : n.var ∈ (groupByVar old.paths).map Prod.fst := by
        simp only [sameKeys, Bool.and_eq_true, List.all_eq_true, List.contains_iff_mem, Dict.keys] at hk
        exact hk.2 _ (List.mem_map.2 ⟨_, Dict.mem_of_get? hgn, rfl⟩)
      obtain ⟨os, hos⟩ := Option.isSome_iff_exists.1 ((Dict.isSome_get?_iff _ _).2 hkey)
      obtain ⟨d, hd, hdp⟩ := forall₂_mem_left hds (Dict.mem_of_get? hos)
      dsimp only at hdp
      rw [hng] at hdp
      rcases diffPaths_added hdp n (List.mem_filter.2 ⟨hnm, by simp⟩) with h | ⟨o, ho1, ho2⟩
      · exact .inl (List.mem_flatMap.2 ⟨d, hd, h⟩)
      · rw [((ho _ _).1 hos).2] at ho1
        obtain ⟨ho3, ho4⟩ := List.mem_filter.1 ho1
        exact .inr ⟨o, ho3, by simpa using ho4, ho2⟩
  · rw [if_neg hk] at h; cases h

theorem newVal_spec (changed : List (IPath C A)) (p : IPath C A) :
    (newVal changed p).var = p.var ∧ (newVal changed p).cond = p.cond ∧ (newVal changed p).condVeri = p.condVeri := by
  unfold newVal
  induction changed generalizing p with
  | nil => exact ⟨rfl, rfl, rfl⟩
  | cons r l ih =>
    rw [List.foldl_cons]
    by_cases h : p.cond = r.cond
    · rw [if_pos h]; exact ih _
    · rw [if_neg h]; exact ih _

theorem toSimulate_spec {old new : Dict String (ILogic C A)} {cached kept : Dict String (CSeg K T C A)} {added : List (String × IPath C A)}
    (h : toSimulate old new cached = .ok (kept, added)) :
    sameKeys old new = true ∧ (∀ id s, (id, s) ∈ cached → ∃ r, reviewSegment old new id s = .ok r ∧ (∀ p ∈ r.2, p ∈ added)) ∧
    (∀ id s', (id, s') ∈ kept → ∃ s r, (id, s) ∈ cached ∧ reviewSegment old new id s = .ok r ∧ r.1 = some s') := by
  unfold toSimulate at h
  by_cases hk : sameKeys old new = true
  · rw [if_pos hk] at h
    obtain ⟨rs, hrs, h⟩ := (map_ok_iff _ _ _).1 h
    have hrs := (mapM_ok_iff _ _ _).1 hrs
    injection h with h1 h2; subst h1 h2
    refine ⟨hk, ?_, ?_⟩
    · intro id s hs
      obtain ⟨r, hr, hrr⟩ := forall₂_mem_left hrs hs
      obtain ⟨r', hr', rfl⟩ := (map_ok_iff _ _ _).1 hrr
      exact ⟨r', hr', fun p hp => List.mem_flatMap.2 ⟨_, hr, hp⟩⟩
    · intro id s' hs
      obtain ⟨r, hr, hrs'⟩ := List.mem_filterMap.1 hs
      obtain ⟨⟨id', s⟩, ha, har⟩ := forall₂_mem_right hrs hr
      obtain ⟨r', hr', rfl⟩ := (map_ok_iff _ _ _).1 har
      dsimp only at hrs' hr'
      cases hr1 : r'.1 with
      | none => rw [hr1] at hrs'; cases hrs'
      | some s1 =>
        rw [hr1] at hrs'
        injection hrs' with hrs'; injection hrs' with h1 h2; subst h1 h2
        exact ⟨s, r', ha, hr', hr1⟩
  · rw [if_neg hk] at h; cases h

end

end Verif.Proofs.Inc
