import Verif.Proofs.ATree

/-! Helper lemmas for C10 (dump/load) and C12 (first transitions). -/

set_option autoImplicit false

namespace Verif.ATree
open Verif.Spec

variable {J : Type}

/-- identifier of the root of a subtree -/
def tid (t : RTree (Node J)) : Int := t.label.id

theorem dumpKids_spec (p : Int) : ∀ (cs : List (RTree (Node J))) (d : Dict Int (NodeDict J)) (e : NodeDict J),
    Dict.get? d p = some e → (cs.map tid).Nodup → p ∉ cs.map tid →
    ∃ d', dumpKids p cs d = some d' ∧ Dict.get? d' p = some { e with child := e.child ++ cs.map tid } ∧
      (∀ c ∈ cs, Dict.get? d' (tid c) = some { toDict c.label with parent := some p }) ∧
      (∀ k, k ≠ p → k ∉ cs.map tid → Dict.get? d' k = Dict.get? d k) := by
  intro cs
  induction cs with
  | nil => intro d e h _ _; exact ⟨d, rfl, by simpa using h, by simp, fun _ _ _ => rfl⟩
  | cons c cs ih =>
    intro d e h hn hp
    simp only [List.map_cons, List.nodup_cons, List.mem_cons, not_or] at hn hp
    obtain ⟨hn1, hn2⟩ := hn
    obtain ⟨hp1, hp2⟩ := hp
    have hne : c.label.id ≠ p := fun x => hp1 x.symm
    have h1 : Dict.get? (Dict.set d c.label.id { toDict c.label with parent := some p }) p = some e := by
      rw [Dict.get?_set_ne _ _ _ _ hne]; exact h
    unfold dumpKids
    simp only [h1]
    obtain ⟨d', e1, e2, e3, e4⟩ := ih (Dict.set (Dict.set d c.label.id { toDict c.label with parent := some p }) p
      { e with child := e.child ++ [c.label.id] }) { e with child := e.child ++ [c.label.id] }
      (Dict.get?_set_self _ _ _) hn2 hp2
    refine ⟨d', e1, ?_, ?_, ?_⟩
    · rw [e2]; simp [tid]
    · intro c' hc'
      rcases List.mem_cons.1 hc' with rfl | hc'
      · change Dict.get? d' c'.label.id = _
        rw [e4 _ hne hn1, Dict.get?_set_ne _ _ _ _ (Ne.symm hne)]
        exact Dict.get?_set_self _ _ _
      · exact e3 c' hc'
    · intro k hk hk'
      simp only [List.map_cons, List.mem_cons, not_or] at hk'
      have hkc : c.label.id ≠ k := fun x => hk'.1 x.symm
      rw [e4 k hk hk'.2, Dict.get?_set_ne _ _ _ _ (Ne.symm hk), Dict.get?_set_ne _ _ _ _ hkc]

theorem dumpLoop_cons (p : RTree (Node J)) (q : List (RTree (Node J))) (d : Dict Int (NodeDict J)) :
    dumpLoop (p :: q) d = match dumpKids p.label.id p.kids d with
    | none => none
    | some d => dumpLoop (q ++ p.kids) d := by rw [dumpLoop]; rfl

theorem map_subsL_self_sublist (q : List (RTree (Node J))) : (q.map tid).Sublist ((RTree.subsL q).map tid) := by
  apply List.Sublist.map
  induction q with
  | nil => exact List.Sublist.refl _
  | cons t q ih =>
    simp only [RTree.subsL]
    rw [subs_eq, List.cons_append]
    exact List.Sublist.cons_cons _ (ih.trans (List.sublist_append_right _ _))

theorem dumpLoop_spec (q : List (RTree (Node J))) : ∀ (d : Dict Int (NodeDict J)),
    ((RTree.subsL q).map tid).Nodup → (∀ u ∈ q, ∃ par, Dict.get? d (tid u) = some ⟨u.label, par, []⟩) →
    ∃ d', dumpLoop q d = some d' ∧
      (∀ u ∈ RTree.subsL q, ∃ par, Dict.get? d' (tid u) = some ⟨u.label, par, u.kids.map tid⟩) ∧
      (∀ k, k ∉ (RTree.subsL q).map tid → Dict.get? d' k = Dict.get? d k) := by
  induction q using bfs_ind with
  | h0 => intro d _ _; exact ⟨d, by rw [dumpLoop], by simp [RTree.subsL], fun _ _ => rfl⟩
  | h1 p q ih =>
    intro d hn hq
    have hsub : RTree.subsL (p :: q) = p :: (RTree.subsL p.kids ++ RTree.subsL q) := by
      simp only [RTree.subsL]; rw [subs_eq]; rfl
    have hperm : (RTree.subsL (p :: q)).Perm (p :: RTree.subsL (q ++ p.kids)) := by
      rw [hsub, subsL_append]; exact List.Perm.cons _ List.perm_append_comm
    have hn' := (hperm.map tid).nodup_iff.1 hn
    simp only [List.map_cons, List.nodup_cons] at hn'
    obtain ⟨hpn, hn''⟩ := hn'
    have hqk : ((q ++ p.kids).map tid).Nodup := List.Nodup.sublist (map_subsL_self_sublist _) hn''
    rw [List.map_append, List.nodup_append] at hqk
    obtain ⟨_, hk2, hk3⟩ := hqk
    have hpk : tid p ∉ p.kids.map tid := fun h => hpn ((map_subsL_self_sublist _).subset (by
      rw [List.map_append]; exact List.mem_append_right _ h))
    have hpq : tid p ∉ q.map tid := fun h => hpn ((map_subsL_self_sublist _).subset (by
      rw [List.map_append]; exact List.mem_append_left _ h))
    obtain ⟨par, hpar⟩ := hq p (by simp)
    obtain ⟨d1, e1, e2, e3, e4⟩ := dumpKids_spec (tid p) p.kids d _ hpar hk2 hpk
    obtain ⟨d', f1, f2, f3⟩ := ih d1 hn'' (by
      intro u hu
      rcases List.mem_append.1 hu with hu | hu
      · obtain ⟨par', h'⟩ := hq u (by simp [hu])
        refine ⟨par', ?_⟩
        rw [e4, h']
        · intro he; exact hpq (List.mem_map.2 ⟨u, hu, he⟩)
        · intro he; exact hk3 _ (List.mem_map_of_mem hu) _ he rfl
      · exact ⟨some (tid p), e3 u hu⟩)
    refine ⟨d', ?_, ?_, ?_⟩
    · rw [dumpLoop_cons]
      change (match dumpKids (tid p) p.kids d with | none => none | some d => dumpLoop (q ++ p.kids) d) = _
      rw [e1]; exact f1
    · intro u hu
      rcases List.mem_cons.1 (hperm.mem_iff.1 hu) with rfl | hu
      · exact ⟨par, by rw [f3 _ hpn, e2]; simp⟩
      · exact f2 u hu
    · intro k hk
      have hk' : k ∉ (p :: RTree.subsL (q ++ p.kids)).map tid := fun h => hk ((hperm.map tid).mem_iff.2 h)
      simp only [List.map_cons, List.mem_cons, not_or] at hk'
      rw [f3 k hk'.2, e4 k hk'.1]
      intro h
      exact hk'.2 ((map_subsL_self_sublist _).subset (by rw [List.map_append]; exact List.mem_append_right _ h))

theorem dump_spec (t : RTree (Node J)) (hn : ((RTree.subs t).map tid).Nodup) :
    ∃ d, dump t = some d ∧ ∀ u ∈ RTree.subs t, ∃ par, Dict.get? d (tid u) = some ⟨u.label, par, u.kids.map tid⟩ := by
  have hs : RTree.subsL [t] = RTree.subs t := by simp [RTree.subsL]
  obtain ⟨d, h1, h2, _⟩ := dumpLoop_spec [t] [(t.label.id, toDict t.label)] (by rw [hs]; exact hn) (by
    intro u hu
    simp only [List.mem_singleton] at hu
    subst hu
    exact ⟨none, by rw [Dict.get?_cons]; simp [tid, toDict]⟩)
  exact ⟨d, h1, by rw [hs] at h2; exact h2⟩

/-! ### load -/

theorem loadKids_spec (R : Rounding) (data : Dict Int (NodeDict J)) (f : Node J → Node J) (p : Nat) :
    ∀ (cs : List (RTree (Node J))) (h : Heap J) (q : List (NodeDict J × Nat)) (n : Node J) (ps : List Nat),
    h[p]? = some (n, ps) →
    (∀ c ∈ cs, ∃ e, Dict.get? data (tid c) = some e ∧ e.node = c.label ∧ e.child = c.kids.map tid ∧ fromDict R e = .ok (f c.label)) →
    ∃ (h' : Heap J) (es : List (NodeDict J)), loadKids R data p (cs.map tid) h q =
        .ok (h', q ++ es.zipIdx h.length) ∧
      h'[p]? = some (n, ps ++ List.range' h.length cs.length) ∧ h'.length = h.length + cs.length ∧
      (∀ i, i ≠ p → i < h.length → h'[i]? = h[i]?) ∧
      es.length = cs.length ∧
      (∀ (j : Nat) c, cs[j]? = some c → h'[h.length + j]? = some (f c.label, []) ∧
        ∃ e, es[j]? = some e ∧ e.child = c.kids.map tid) := by
  intro cs
  induction cs with
  | nil =>
    intro h q n ps hp _
    exact ⟨h, [], by simp [loadKids], by simpa using hp, by simp, fun _ _ _ => rfl, rfl, by simp⟩
  | cons c cs ih =>
    intro h q n ps hp hcs
    obtain ⟨e, e1, e2, e3, e4⟩ := hcs c (by simp)
    have hplt : p < h.length := by
      by_contra hge; rw [List.getElem?_eq_none (by omega)] at hp; cases hp
    let h1 : Heap J := (h ++ [(f c.label, [])]).modify p (fun x => (x.1, x.2 ++ [h.length]))
    have hlen : h1.length = h.length + 1 := by simp [h1]
    have hp1 : h1[p]? = some (n, ps ++ [h.length]) := by
      simp only [h1]
      rw [List.getElem?_modify]
      rw [List.getElem?_append_left hplt, hp]; simp
    have hnew : h1[h.length]? = some (f c.label, []) := by
      simp only [h1]
      rw [List.getElem?_modify]
      have : p ≠ h.length := by omega
      simp [this]
    have hold : ∀ i, i ≠ p → i < h.length → h1[i]? = h[i]? := by
      intro i hi hlt
      simp only [h1]
      rw [List.getElem?_modify, List.getElem?_append_left hlt]
      have : p ≠ i := fun x => hi x.symm
      simp [this]
    obtain ⟨h', es, a1, a2, a3, a4, a5, a6⟩ := ih h1 (q ++ [(e, h.length)]) n (ps ++ [h.length]) hp1
      (fun c hc => hcs c (by simp [hc]))
    refine ⟨h', e :: es, ?_, ?_, ?_, ?_, ?_, ?_⟩
    · simp only [List.map_cons, loadKids, e1, e4]
      change loadKids R data p (cs.map tid) h1 (q ++ [(e, h.length)]) = _
      rw [a1, hlen]
      simp [List.zipIdx_cons]
    · rw [a2, hlen]
      simp [List.range'_succ]
    · rw [a3, hlen]; simp; omega
    · intro i hi hlt
      rw [a4 i hi (by omega), hold i hi hlt]
    · simp [a5]
    · intro j c' hj
      cases j with
      | zero =>
        simp only [List.getElem?_cons_zero, Option.some.injEq] at hj
        subst hj
        refine ⟨?_, e, rfl, e3⟩
        rw [Nat.add_zero, a4 _ (by omega) (by omega)]; exact hnew
      | succ j =>
        simp only [List.getElem?_cons_succ] at hj
        obtain ⟨b1, b2⟩ := a6 j c' hj
        rw [hlen] at b1
        refine ⟨?_, ?_⟩
        · have : h.length + (j + 1) = h.length + 1 + j := by omega
          rw [this]; exact b1
        · simpa using b2

theorem heapTrees_of_forall₂ {D : Type} {heap : List (D × List Nat)} {ps : List Nat} {ts : List (RTree D)}
    (h : List.Forall₂ (HeapTree heap) ps ts) : HeapTrees heap ps ts := by
  induction h with
  | nil => exact .nil
  | cons a _ ih => exact .cons a ih

theorem mapL_eq {D E : Type} (f : D → E) (ts : List (RTree D)) : RTree.mapL f ts = ts.map (RTree.map f) := by
  induction ts with
  | nil => rfl
  | cons t ts ih => simp [RTree.mapL, ih]

theorem loadLoop_spec (R : Rounding) (data : Dict Int (NodeDict J)) (f : Node J → Node J) (q : List (RTree (Node J))) :
    ∀ (h : Heap J) (qs : List (NodeDict J × Nat)) (fuel : Nat), sizeL q ≤ fuel →
    (∀ u ∈ RTree.subsL q, ∃ e, Dict.get? data (tid u) = some e ∧ e.node = u.label ∧ e.child = u.kids.map tid ∧
      fromDict R e = .ok (f u.label)) →
    List.Forall₂ (fun u x => x.1.child = u.kids.map tid ∧ h[x.2]? = some (f u.label, [])) q qs →
    (qs.map Prod.snd).Nodup →
    ∃ h', loadLoop R data fuel h qs = some (.ok h') ∧
      List.Forall₂ (fun u x => HeapTree h' x.2 (u.map f)) q qs ∧
      (∀ i, i < h.length → i ∉ qs.map Prod.snd → h'[i]? = h[i]?) := by
  induction q using bfs_ind with
  | h0 =>
    intro h qs fuel _ _ hf _
    cases hf
    refine ⟨h, ?_, .nil, fun _ _ _ => rfl⟩
    cases fuel <;> rfl
  | h1 p q ih =>
    intro h qs fuel hfuel hdata hf hn
    cases hf with
    | @cons _ x _ qs' hx hf' =>
    obtain ⟨e, r⟩ := x
    obtain ⟨hx1, hx2⟩ := hx
    simp only [List.map_cons, List.nodup_cons] at hn
    obtain ⟨hn1, hn2⟩ := hn
    have hrlt : r < h.length := by
      by_contra hge
      have : h[r]? = none := List.getElem?_eq_none (by omega)
      rw [this] at hx2; cases hx2
    have hsub : RTree.subsL (p :: q) = p :: (RTree.subsL p.kids ++ RTree.subsL q) := by
      simp only [RTree.subsL]; rw [subs_eq]; rfl
    obtain ⟨h1, es, a1, a2, a3, a4, a5, a6⟩ := loadKids_spec R data f r p.kids h qs' (f p.label) [] hx2 (by
      intro c hc
      exact hdata c (by rw [hsub]; simp only [List.mem_cons, List.mem_append]; exact Or.inr (Or.inl (mem_subsL.2 ⟨c, hc, mem_subs_self c⟩))))
    cases fuel with
    | zero => simp only [sizeL] at hfuel; rw [size_eq] at hfuel; omega
    | succ fuel =>
      have hq2 : ∀ x ∈ qs', x.2 < h.length ∧ x.2 ≠ r := by
        intro x hx
        obtain ⟨u, _, _, hu⟩ := forall₂_mem_right hf' hx
        refine ⟨?_, ?_⟩
        · by_contra hge
          rw [List.getElem?_eq_none (by omega)] at hu; cases hu
        · intro he; exact hn1 (List.mem_map.2 ⟨x, hx, he⟩)
      have hsnd : (es.zipIdx h.length).map Prod.snd = List.range' h.length p.kids.length := by
        rw [List.zipIdx_map_snd, a5]
      have hkids : List.Forall₂ (fun (u : RTree (Node J)) (x : NodeDict J × Nat) => x.1.child = u.kids.map tid ∧ h1[x.2]? = some (f u.label, []))
          p.kids (es.zipIdx h.length) := by
        rw [List.forall₂_iff_get]
        refine ⟨by simp [a5], ?_⟩
        intro i hi1 hi2
        obtain ⟨b1, e', b2, b3⟩ := a6 i p.kids[i] (List.getElem?_eq_getElem hi1)
        have hie : i < es.length := by rw [a5]; exact hi1
        rw [List.getElem?_eq_getElem hie] at b2
        cases b2
        simp only [List.get_eq_getElem, List.getElem_zipIdx]
        exact ⟨b3, b1⟩
      have hall : List.Forall₂ (fun (u : RTree (Node J)) (x : NodeDict J × Nat) => x.1.child = u.kids.map tid ∧ h1[x.2]? = some (f u.label, []))
          (q ++ p.kids) (qs' ++ es.zipIdx h.length) := by
        refine List.rel_append ?_ hkids
        have : ∀ x ∈ qs', h1[x.2]? = h[x.2]? := fun x hx => a4 _ (hq2 x hx).2 (hq2 x hx).1
        clear hn2 hn1 a1 hkids hsnd ih hfuel hdata hsub
        induction hf' with
        | nil => exact .nil
        | @cons u x us xs hux _ ih =>
          refine .cons ⟨hux.1, ?_⟩ (ih (fun y hy => hq2 y (by simp [hy])) (fun y hy => this y (by simp [hy])))
          rw [this x (by simp)]; exact hux.2
      obtain ⟨h', c1, c2, c3⟩ := ih h1 (qs' ++ es.zipIdx h.length) fuel
        (by rw [sizeL_append]; simp only [sizeL] at hfuel; rw [size_eq] at hfuel; omega)
        (by
          intro u hu
          apply hdata
          rw [hsub]
          rw [subsL_append] at hu
          simp only [List.mem_cons, List.mem_append] at hu ⊢
          tauto)
        hall
        (by
          rw [List.map_append, List.nodup_append, hsnd]
          refine ⟨hn2, List.nodup_range', ?_⟩
          intro a ha b hb he
          subst he
          obtain ⟨x, hx, rfl⟩ := List.mem_map.1 ha
          have := (hq2 x hx).1
          rw [List.mem_range'_1] at hb
          omega)
      have hlen' : (q.length = qs'.length) := hf'.length_eq
      have g1 := List.forall₂_take_append _ _ _ c2
      have g2 := List.forall₂_drop_append _ _ _ c2
      rw [← hlen', List.take_left'  rfl] at g1
      rw [← hlen', List.drop_left' rfl] at g2
      refine ⟨h', ?_, .cons ?_ g1, ?_⟩
      · simp only [loadLoop]
        rw [hx1, a1]
        exact c1
      · have hr' : h'[r]? = some (f p.label, List.range' h.length p.kids.length) := by
          rw [c3 r (by omega), a2]; · simp
          rw [List.map_append, hsnd, List.mem_append, not_or]
          refine ⟨hn1, ?_⟩
          rw [List.mem_range'_1]; omega
        have hk : List.Forall₂ (HeapTree h') (List.range' h.length p.kids.length) (p.kids.map (RTree.map f)) := by
          rw [← hsnd]
          rw [List.forall₂_map_left_iff, List.forall₂_map_right_iff]
          exact g2.flip
        cases p with
        | node d ts =>
          simp only [RTree.map, mapL_eq]
          exact .mk hr' (heapTrees_of_forall₂ hk)
      · intro i hi hni
        simp only [List.map_cons, List.mem_cons, not_or] at hni
        rw [c3 i (by omega), a4 i hni.1 hi]
        rw [List.map_append, hsnd, List.mem_append, not_or]
        refine ⟨hni.2, ?_⟩
        rw [List.mem_range'_1]; omega

/-! ### first_transitions -/

variable {M : Type} [DecidableEq M]

theorem foldlM_flatMap' {α β γ : Type} (f : γ → β → Option γ) (g : α → List β) (l : List α) (a : γ) :
    (l.flatMap g).foldlM f a = l.foldlM (fun a x => (g x).foldlM f a) a := by
  induction l generalizing a with
  | nil => rfl
  | cons x l ih =>
    rw [List.flatMap_cons, List.foldlM_append, List.foldlM_cons]
    cases (g x).foldlM f a with
    | none => rfl
    | some b => exact ih b

/-- edge `n → c` with an agent of `n` -/
abbrev Edge (M : Type) := FT M × FT M × String

/-- agent's mode differs -/
def ftChanges (e : Edge M) : Bool := match Dict.get? e.1.mode e.2.2, Dict.get? e.2.1.mode e.2.2 with
  | some m, some m' => decide (m ≠ m')
  | _, _ => false

theorem ft_fold (es : List (Edge M)) : ∀ (d d' : Dict String ℚ),
    es.foldlM (fun d e => ftAgent e.1 e.2.1 d e.2.2) d = some d' →
    ∀ a, Dict.get? d' a = (Dict.get? d a).or ((es.find? (fun e => decide (e.2.2 = a) && ftChanges e)).map (fun e => e.2.1.start)) := by
  induction es with
  | nil => intro d d' h a; simp at h; subst h; simp
  | cons e es ih =>
    intro d d' h a
    rw [List.foldlM_cons] at h
    cases hd : ftAgent e.1 e.2.1 d e.2.2 with
    | none => rw [hd] at h; simp at h
    | some d1 =>
      rw [hd] at h
      have h2 := ih d1 d' h a
      rw [h2]
      unfold ftAgent at hd
      split at hd
      · rename_i hm
        cases hd
        rw [List.find?_cons]
        split
        · rename_i hc
          simp only [Bool.and_eq_true, decide_eq_true_eq] at hc
          rw [hc.1, Dict.mem_iff] at hm
          obtain ⟨v, hv⟩ := Option.isSome_iff_exists.1 hm
          rw [hv]; rfl
        · rfl
      · rename_i hm
        have hnone : Dict.get? d e.2.2 = none := by
          cases hg : Dict.get? d e.2.2 with
          | none => rfl
          | some v => exact absurd ((Dict.mem_iff d _).2 (by rw [hg]; rfl)) hm
        split at hd
        · rename_i m m' g1 g2
          simp only [Option.some.injEq] at hd
          have hch : ftChanges e = decide (m ≠ m') := by unfold ftChanges; rw [g1, g2]
          rw [List.find?_cons]
          by_cases hmm : m = m'
          · simp only [hmm, ne_eq, not_true_eq_false, if_false] at hd
            subst hd
            simp [hch, hmm]
          · simp only [ne_eq, hmm, not_false_eq_true, if_true] at hd
            subst hd
            rw [Dict.get?_set]
            by_cases ha : e.2.2 = a
            · subst ha
              simp [hch, hmm, hnone]
            · simp [ha]
        · cases hd

end Verif.ATree
