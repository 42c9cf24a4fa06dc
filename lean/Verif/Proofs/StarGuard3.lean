import Verif.Proofs.StarGuard2
import Verif.Proofs.Star

/-! Helpers for C71: ranges of variables for lane queries. -/

set_option autoImplicit false
set_option linter.unusedSectionVars false

namespace Verif.Proofs.StarGrd

open Verif Verif.Grd Verif.Grd.Spec Verif.Stars Verif.StarGrd Verif.StarGrd.Spec Verif.Proofs Finset

section
variable {K : Type}

/-! ### the order of the dictionary -/

/-- The variables that were sensed come before those of single elements. -/
def Ordered (w : Agents K) (cont : Dict Text (Entry K)) : Prop :=
  ∃ A B : List Text, cont.map Prod.fst = A ++ B ∧ (∀ k ∈ A, agentOf k = "ego".toList ∨ agentOf k = w.list.toList) ∧
    ∀ k ∈ B, ∃ i, ∃ v ∈ w.ovars, k = dotted (elemText w.list.toList i) v.toList

theorem keys_set_sub (d : Dict Text (Entry K)) (k : Text) (e : Entry K) (k' : Text) (h : k' ∈ (Dict.set d k e).map Prod.fst) :
    k' = k ∨ k' ∈ d.map Prod.fst := by
  rw [Dict.keys_set] at h
  split at h
  · exact .inr h
  · rcases List.mem_append.1 h with h | h
    · exact .inr h
    · exact .inl (List.mem_singleton.1 h)

theorem ordered_sensed (w : Agents K) (hu : Unmistakable w) (n : Nat) : Ordered w (sensed w n) := by
  obtain ⟨d1, d2, d3⟩ := hu.dots
  refine ⟨(sensed w n).map Prod.fst, [], by simp, ?_, by simp⟩
  unfold sensed senseStars
  generalize (w.stars.take n).map (fun s => (false, s)) ++ (true, w.star) :: (w.stars.drop n).map (fun s => (false, s)) = ags
  have key : ∀ (ags : List (Bool × StarSet K)) (d : Dict Text (Entry K)), (∀ k ∈ d.map Prod.fst, agentOf k = "ego".toList ∨ agentOf k = w.list.toList) →
      ∀ k ∈ (ags.foldl (fun d a => if a.1 then setEgo (w.vars.map String.toList) a.2 d
        else (w.ovars.map String.toList).foldl (addOther w.list.toList a.2) d) d).map Prod.fst,
        agentOf k = "ego".toList ∨ agentOf k = w.list.toList := by
    intro ags
    induction ags with
    | nil => intro d hd; exact hd
    | cons a ags ih =>
      intro d hd
      rw [List.foldl_cons]
      refine ih _ ?_
      split
      · unfold setEgo
        generalize w.vars.map String.toList = vs
        induction vs generalizing d with
        | nil => exact hd
        | cons v vs ihv =>
          rw [List.foldl_cons]
          refine ihv _ ?_
          intro k hk
          rcases keys_set_sub _ _ _ _ hk with rfl | hk
          · exact .inl (agentOf_dotted _ _ dot_ego)
          · exact hd k hk
      · generalize w.ovars.map String.toList = vs
        induction vs generalizing d with
        | nil => exact hd
        | cons v vs ihv =>
          rw [List.foldl_cons]
          refine ihv _ ?_
          intro k hk
          have : k = dotted w.list.toList v ∨ k ∈ d.map Prod.fst := by
            unfold addOther at hk
            split at hk <;> exact keys_set_sub _ _ _ _ hk
          rcases this with rfl | hk
          · exact .inr (agentOf_dotted _ _ d3)
          · exact hd k hk
  exact key ags [] (by simp)

theorem ordered_elems (w : Agents K) (ks : List Key)
    (hk : ∀ k ∈ ks, (∃ v ∈ w.vars, k = .attr "ego" v) ∨ (∃ i < w.stars.length, ∃ v ∈ w.ovars, k = .elem w.list i v))
    (cont cont' : Dict Text (Entry K)) (hg : Ordered w cont) (h : ks.foldlM addElemStar cont = .ok cont') : Ordered w cont' := by
  refine foldlM_inv h hg (fun b k b' hmem hb hstep => ?_)
  obtain ⟨A, B, h1, h2, h3⟩ := hb
  rcases hk k hmem with ⟨v, hv, rfl⟩ | ⟨i, hi, v, hv, rfl⟩
  · cases hstep; exact ⟨A, B, h1, h2, h3⟩
  · simp only [addElemStar] at hstep
    split at hstep
    · split at hstep
      · cases hstep
        by_cases hin : keyText (.elem w.list i v) ∈ b.map Prod.fst
        · exact ⟨A, B, by rw [Dict.keys_set, if_pos hin, h1], h2, h3⟩
        · refine ⟨A, B ++ [keyText (.elem w.list i v)], by rw [Dict.keys_set, if_neg hin, h1, List.append_assoc], h2, fun k hk => ?_⟩
          rcases List.mem_append.1 hk with hk | hk
          · exact h3 k hk
          · exact ⟨i, v, hv, List.mem_singleton.1 hk⟩
      · cases hstep
    · cases hstep; exact ⟨A, B, h1, h2, h3⟩

/-! ### the variables of an agent -/

theorem indexFold (agent : Text) : ∀ (C : Dict Text (Entry K)) (as vs : List Text),
    List.Forall₂ (fun (kv : Text × Entry K) a => attrOf kv.1 = .ok a) (C.filter (fun kv => !kv.2.isMany)) as →
    C.foldlM (indexStep agent) vs = .ok (as.foldl (fun vs a => if dotted agent a ∈ vs then vs else vs ++ [dotted agent a]) vs)
  | [], as, vs, h => by
    cases h
    rfl
  | kv :: C, as, vs, h => by
    rw [List.filter_cons] at h
    split at h
    · next hm =>
      cases h with
      | @cons _ a _ as ha hrest =>
        have hm : kv.2.isMany = false := by simpa using hm
        have : indexStep agent vs kv = .ok (if dotted agent a ∈ vs then vs else vs ++ [dotted agent a]) := by
          unfold indexStep
          rw [hm, ha]
          rfl
        rw [List.foldlM_cons, this]
        exact indexFold agent C as _ hrest
    · next hm =>
      have hm : kv.2.isMany = true := by simpa using hm
      have : indexStep agent vs kv = .ok vs := by
        unfold indexStep
        rw [if_pos hm]
      rw [List.foldlM_cons, this]
      exact indexFold agent C as _ h

theorem dedup_new (agent : Text) : ∀ (as vs : List Text), as.Nodup → (∀ a ∈ as, dotted agent a ∉ vs) →
    as.foldl (fun vs a => if dotted agent a ∈ vs then vs else vs ++ [dotted agent a]) vs = vs ++ as.map (dotted agent)
  | [], vs, _, _ => by simp
  | a :: as, vs, hn, h => by
    obtain ⟨h1, h2⟩ := List.nodup_cons.1 hn
    rw [List.foldl_cons, if_neg (h a (by simp)), dedup_new agent as _ h2]
    · simp
    · intro b hb hm
      rcases List.mem_append.1 hm with hm | hm
      · exact h b (by simp [hb]) hm
      · have := List.mem_singleton.1 hm
        unfold dotted at this
        have : b = a := by simpa using this
        exact h1 (this ▸ hb)

theorem dedup_old (agent : Text) : ∀ (as vs : List Text), (∀ a ∈ as, dotted agent a ∈ vs) →
    as.foldl (fun vs a => if dotted agent a ∈ vs then vs else vs ++ [dotted agent a]) vs = vs
  | [], vs, _ => rfl
  | a :: as, vs, h => by
    rw [List.foldl_cons, if_pos (h a (by simp))]
    exact dedup_old agent as vs (fun b hb => h b (by simp [hb]))

/-- A single variable without agent stops the search. -/
theorem index_tmp (cont : Dict Text (Entry K)) (k : Text) (s : StarSet K) (hk : (k, Entry.one s) ∈ cont) (hd : '.' ∉ k) (hu : '_' ∈ k) (var : Text) :
    ∃ e, varIndex cont var = .error e := by
  have hagk : agentOf k = k := by
    unfold agentOf
    have : ∀ a : Text, '.' ∉ a → a.takeWhile (fun c => decide (c ≠ '.')) = a := by
      intro a
      induction a with
      | nil => intro _; rfl
      | cons c a ih =>
        intro h
        simp only [List.mem_cons, not_or] at h
        rw [List.takeWhile_cons, if_pos (by simpa using Ne.symm h.1), ih h.2]
    exact this k hd
  have hq : k ∈ queryAgents cont := List.mem_map.2 ⟨(k, .one s), List.mem_filter.2 ⟨hk, rfl⟩, hagk⟩
  cases h : varIndex cont var with
  | error e => exact ⟨e, rfl⟩
  | ok r =>
    exfalso
    obtain ⟨vss, hv, -⟩ := (map_ok_iff _ _ _).1 h
    obtain ⟨vs, -, hvs⟩ := forall₂_mem_left ((mapM_ok_iff _ _ _).1 hv) hq
    unfold indexVars at hvs
    rw [if_neg (by simpa using hu)] at hvs
    obtain ⟨C, D, rfl⟩ := List.append_of_mem hk
    rw [List.foldlM_append] at hvs
    obtain ⟨b, -, hb⟩ := (bind_ok_iff _ _ _).1 hvs
    rw [List.foldlM_cons] at hb
    obtain ⟨b', hb', -⟩ := (bind_ok_iff _ _ _).1 hb
    have : attrOf k = .error "IndexError" := by
      unfold attrOf
      have : k.dropWhile (fun c => decide (c ≠ '.')) = [] := by
        have : ∀ a : Text, '.' ∉ a → a.dropWhile (fun c => decide (c ≠ '.')) = [] := by
          intro a
          induction a with
          | nil => intro _; rfl
          | cons c a ih =>
            intro h
            simp only [List.mem_cons, not_or] at h
            rw [List.dropWhile_cons, if_pos (by simpa using Ne.symm h.1), ih h.2]
        exact this k hd
      rw [this]
    unfold indexStep at hb'
    rw [if_neg (by simp [Entry.isMany])] at hb'
    simp only [this, Except.map] at hb'
    cases hb'

end

section
variable {K : Type} [Field K] [LinearOrder K]

theorem indexVars_ego (w : Agents K) (hu : Unmistakable w) (cont : Dict Text (Entry K)) (hg : Good w cont) :
    indexVars cont "ego".toList = .ok (w.vars.map (fun v => dotted "ego".toList v.toList)) := by
  obtain ⟨d1, d2, d3⟩ := hu.dots
  unfold indexVars
  rw [if_pos (by decide +kernel)]
  refine congrArg Except.ok ?_
  rw [← hg.ego]
  refine List.filter_congr (fun k hk => ?_)
  obtain ⟨e, he⟩ := Option.isSome_iff_exists.1 ((Dict.isSome_get?_iff _ _).2 hk)
  rw [decide_eq_decide]
  have hund : "ego".toList <:+: k → "ego".toList <:+: under k := by
    intro h
    have := h.map (fun c => if c = '.' then '_' else c)
    have e := under_self "ego".toList dot_ego
    unfold under at e ⊢
    rwa [e] at this
  rcases hg.entries k e he with ⟨v, hv, rfl, -⟩ | ⟨v, hv, rfl, -⟩ | ⟨i, s, hi, v, hv, rfl, -⟩
  · rw [agentOf_dotted _ _ dot_ego]
    exact ⟨fun _ => rfl, fun _ => (List.prefix_append _ _).isInfix⟩
  · rw [agentOf_dotted _ _ d3]
    rw [under_dotted _ _ d3 (d2 v hv)] at hund
    exact ⟨fun h => absurd (hund h) (hu.ego v hv).1, fun h => absurd h (list_ne_ego w hu v hv)⟩
  · rw [agentOf_dotted _ _ (dot_elemText _ i d3)]
    rw [under_dotted _ _ (dot_elemText _ i d3) (d2 v hv)] at hund
    exact ⟨fun h => absurd (hund h) ((hu.ego v hv).2 i (List.getElem?_eq_some_iff.1 hi).1), fun h => absurd h (elem_ne_ego w i)⟩

theorem indexVars_elem (w : Agents K) (hu : Unmistakable w) (hsub : ∀ v ∈ w.ovars, v ∈ w.vars) (cont : Dict Text (Entry K)) (hg : Good w cont)
    (ho : Ordered w cont) (agent : Text) (ha : '_' ∈ agent) :
    indexVars cont agent = .ok (w.vars.map (fun v => dotted agent v.toList)) := by
  obtain ⟨d1, d2, d3⟩ := hu.dots
  obtain ⟨A, B, h1, h2, h3⟩ := ho
  obtain ⟨C, D, rfl, rfl, rfl⟩ := List.map_eq_append_iff.1 h1
  unfold indexVars
  rw [if_neg (by simpa using ha)]
  have hC : (C.filter (fun kv => !kv.2.isMany)).map Prod.fst = w.vars.map (fun v => dotted "ego".toList v.toList) := by
    have hD : (D.map Prod.fst).filter (fun k => decide (agentOf k = "ego".toList)) = [] := by
      rw [List.filter_eq_nil_iff]
      intro k hk
      obtain ⟨i, v, _, rfl⟩ := h3 k hk
      rw [agentOf_dotted _ _ (dot_elemText _ i d3), decide_eq_true_eq]
      exact elem_ne_ego w i
    rw [← hg.ego, List.map_append, List.filter_append, hD, List.append_nil, List.filter_map]
    congr 1
    refine List.filter_congr (fun kv hkv => ?_)
    have he := Dict.get?_of_mem hg.nodup (List.mem_append_left D hkv)
    rw [Function.comp_apply]
    rcases hg.entries kv.1 kv.2 he with ⟨v, hv, e1, e2⟩ | ⟨v, hv, e1, e2⟩ | ⟨i, s, hi, v, hv, e1, e2⟩
    · rw [e1, e2, agentOf_dotted _ _ dot_ego]
      exact (decide_eq_true rfl).symm
    · rw [e1, e2, agentOf_dotted _ _ d3]
      exact (decide_eq_false (list_ne_ego w hu v hv)).symm
    · exfalso
      rcases h2 kv.1 (List.mem_map_of_mem hkv) with h | h
      · rw [e1, agentOf_dotted _ _ (dot_elemText _ i d3)] at h
        exact elem_ne_ego w i h
      · rw [e1, agentOf_dotted _ _ (dot_elemText _ i d3)] at h
        exact elemText_ne _ i h
  have hfC : List.Forall₂ (fun (kv : Text × Entry K) a => attrOf kv.1 = .ok a) (C.filter (fun kv => !kv.2.isMany)) (w.vars.map String.toList) := by
    have h1 : List.Forall₂ (fun (k : Text) (a : Text) => attrOf k = .ok a) ((C.filter (fun kv => !kv.2.isMany)).map Prod.fst) (w.vars.map String.toList) := by
      rw [hC, List.forall₂_map_left_iff, List.forall₂_map_right_iff, List.forall₂_same]
      exact fun v hv => attrOf_dotted _ _ dot_ego (d1 v hv)
    rwa [List.forall₂_map_left_iff] at h1
  have hfD : ∃ as, List.Forall₂ (fun (kv : Text × Entry K) a => attrOf kv.1 = .ok a) (D.filter (fun kv => !kv.2.isMany)) as ∧
      ∀ a ∈ as, a ∈ w.vars.map String.toList := by
    have : ∀ D' : Dict Text (Entry K), (∀ kv ∈ D', ∃ i, ∃ v ∈ w.ovars, kv.1 = dotted (elemText w.list.toList i) v.toList) →
        ∃ as, List.Forall₂ (fun (kv : Text × Entry K) a => attrOf kv.1 = .ok a) D' as ∧ ∀ a ∈ as, a ∈ w.vars.map String.toList := by
      intro D'
      induction D' with
      | nil => intro _; exact ⟨[], .nil, by simp⟩
      | cons kv D' ih =>
        intro h
        obtain ⟨i, v, hv, he⟩ := h kv (by simp)
        obtain ⟨as, i1, i2⟩ := ih (fun kv hkv => h kv (by simp [hkv]))
        refine ⟨v.toList :: as, .cons (by rw [he]; exact attrOf_dotted _ _ (dot_elemText _ i d3) (d2 v hv)) i1, ?_⟩
        intro a ha
        rcases List.mem_cons.1 ha with rfl | ha
        · exact List.mem_map_of_mem (hsub v hv)
        · exact i2 a ha
    refine this _ (fun kv hkv => h3 kv.1 (List.mem_map_of_mem (List.mem_of_mem_filter hkv)))
  obtain ⟨as, hfD, hin⟩ := hfD
  rw [indexFold agent (C ++ D) (w.vars.map String.toList ++ as) [] (by
    rw [List.filter_append]
    exact List.rel_append hfC hfD), List.foldl_append, dedup_new agent _ [] ((vars_nodup w hu).map (fun _ _ h => String.toList_injective h)) (by simp),
    List.nil_append, dedup_old agent as _ (fun a ha => List.mem_map_of_mem (hin a ha)), List.map_map]
  rfl

/-- The index of a variable. -/
theorem varIndex_spec (w : Agents K) (hu : Unmistakable w) (hsub : ∀ v ∈ w.ovars, v ∈ w.vars) (cont : Dict Text (Entry K)) (hg : Good w cont)
    (ho : Ordered w cont) (agent : Text) (ha : '.' ∉ agent) (v : String) (hv : v ∈ w.vars) (s : StarSet K)
    (hin : Dict.get? cont (dotted agent v.toList) = some (.one s)) :
    varIndex cont (dotted agent v.toList) = .ok (some (w.vars.idxOf v)) := by
  obtain ⟨d1, d2, d3⟩ := hu.dots
  have hag : ∀ a ∈ queryAgents cont, '.' ∉ a ∧ indexVars cont a = .ok (w.vars.map (fun v => dotted a v.toList)) := by
    intro a hmem
    obtain ⟨kv, hkv, rfl⟩ := List.mem_map.1 hmem
    have he := Dict.get?_of_mem hg.nodup (List.mem_of_mem_filter hkv)
    have hm := (List.mem_filter.1 hkv).2
    rcases hg.entries kv.1 kv.2 he with ⟨v, hv, e1, e2⟩ | ⟨v, hv, e1, e2⟩ | ⟨i, s, hi, v, hv, e1, e2⟩
    · rw [e1, agentOf_dotted _ _ dot_ego]
      exact ⟨dot_ego, indexVars_ego w hu cont hg⟩
    · rw [e2] at hm
      cases hm
    · rw [e1, agentOf_dotted _ _ (dot_elemText _ i d3)]
      exact ⟨dot_elemText _ i d3, indexVars_elem w hu hsub cont hg ho _ (by simp [elemText])⟩
  have hmap : (queryAgents cont).mapM (indexVars cont) = .ok ((queryAgents cont).map (fun a => w.vars.map (fun v => dotted a v.toList))) := by
    rw [mapM_ok_iff, List.forall₂_map_right_iff, List.forall₂_same]
    exact fun a h => (hag a h).2
  have hq : agent ∈ queryAgents cont := by
    refine List.mem_map.2 ⟨(dotted agent v.toList, .one s), List.mem_filter.2 ⟨Dict.mem_of_get? hin, rfl⟩, ?_⟩
    exact agentOf_dotted _ _ ha
  have hidx : ∀ a : Text, '.' ∉ a → dotted agent v.toList ∈ w.vars.map (fun v => dotted a v.toList) →
      (w.vars.map (fun v => dotted a v.toList)).idxOf (dotted agent v.toList) = w.vars.idxOf v := by
    intro a hd hm
    obtain ⟨u, hu', he⟩ := List.mem_map.1 hm
    obtain ⟨rfl, e2⟩ := dotted_inj _ _ _ _ hd ha he
    have hnd : (w.vars.map (fun v => dotted a v.toList)).Nodup := (vars_nodup w hu).map (fun x y h => String.toList_injective (dotted_inj _ _ _ _ ha ha h).2)
    have hlt := List.idxOf_lt_length_of_mem hv
    have := hnd.idxOf_getElem (w.vars.idxOf v) (by simpa using hlt)
    rwa [List.getElem_map, List.getElem_idxOf] at this
  unfold varIndex
  rw [hmap]
  show Except.ok _ = _
  refine congrArg Except.ok ?_
  have key : ∀ (as : List Text) (r : Option Nat), (∀ a ∈ as, '.' ∉ a) → (r = some (w.vars.idxOf v) ∨ (agent ∈ as)) →
      (as.map (fun a => w.vars.map (fun v => dotted a v.toList))).foldl
        (fun r vs => if dotted agent v.toList ∈ vs then some (vs.idxOf (dotted agent v.toList)) else r) r = some (w.vars.idxOf v) := by
    intro as
    induction as with
    | nil =>
      intro r _ h
      rcases h with h | h
      · exact h
      · simp at h
    | cons a as ih =>
      intro r hd h
      rw [List.map_cons, List.foldl_cons]
      refine ih _ (fun b hb => hd b (by simp [hb])) ?_
      by_cases hm : dotted agent v.toList ∈ w.vars.map (fun v => dotted a v.toList)
      · left
        rw [if_pos hm, hidx a (hd a (by simp)) hm]
      · rw [if_neg hm]
        rcases h with h | h
        · exact .inl h
        · rcases List.mem_cons.1 h with rfl | h
          · exact absurd (List.mem_map.2 ⟨v, hv, rfl⟩) hm
          · exact .inr h
  exact key _ none (fun a h => (hag a h).1) (.inr hq)

/-- A state from points of the star sets. -/
theorem state_of_points (w : Agents K) (hu : Unmistakable w) (x : Nat → K) (y : Nat → Nat → K) (hx : InStar w.star x)
    (hy : ∀ i s, w.stars[i]? = some s → InStar s (y i)) :
    ∃ ρ : State K, InStars w ρ ∧ (∀ d v, w.vars[d]? = some v → ρ (.attr "ego" v) = .num (x d)) ∧
      ∀ i d v, i < w.stars.length → w.ovars[d]? = some v → ρ (.elem w.list i v) = .num (y i d) := by
  have hidx : ∀ (l : List String), l.Nodup → ∀ (d : Nat) (v : String), l[d]? = some v → l.idxOf v = d := by
    intro l hl d v hd
    obtain ⟨hlt, rfl⟩ := List.getElem?_eq_some_iff.1 hd
    exact hl.idxOf_getElem d hlt
  let ρ : State K := fun k => match k with
    | .attr _ v => .num (x (w.vars.idxOf v))
    | .elem _ i v => .num (y i (w.ovars.idxOf v))
    | _ => .num 0
  have h1 : ∀ d v, w.vars[d]? = some v → ρ (.attr "ego" v) = .num (x d) := by
    intro d v hd
    show Val.num (x (w.vars.idxOf v)) = _
    rw [hidx _ (vars_nodup w hu) d v hd]
  have h2 : ∀ i d v, i < w.stars.length → w.ovars[d]? = some v → ρ (.elem w.list i v) = .num (y i d) := by
    intro i d v hi hd
    show Val.num (y i (w.ovars.idxOf v)) = _
    rw [hidx _ (ovars_nodup w hu (List.ne_nil_of_length_pos (by omega))) d v hd]
  exact ⟨ρ, ⟨⟨x, hx, h1⟩, fun i s hi => ⟨y i, hy i s hi, fun d v hd => h2 i d v (List.getElem?_eq_some_iff.1 hi).1 hd⟩⟩, h1, h2⟩

end

end Verif.Proofs.StarGrd
