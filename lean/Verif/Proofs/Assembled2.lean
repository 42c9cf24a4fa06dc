import Verif.Proofs.Assembled

/-! The states of the system lie in what is sensed. -/

set_option autoImplicit false
set_option linter.unusedSectionVars false

namespace Verif.Proofs.Asm

open Verif.Asm Verif.Asm.Spec Verif.Grd Verif.Grd.Spec Verif.Sns Verif.Rect.Spec Verif.Rst.Spec

/-! ### Lists -/

theorem lookup_of_mem {A B : Type} [DecidableEq A] : ∀ (l : List (A × B)), (l.map Prod.fst).Nodup → ∀ k v, (k, v) ∈ l → l.lookup k = some v
  | [], _, _, _, h => by cases h
  | p :: l, hn, k, v, h => by
    rw [List.map_cons, List.nodup_cons] at hn
    rcases List.mem_cons.1 h with rfl | h
    · simp [List.lookup_cons]
    · have hne : k ≠ p.1 := fun he => hn.1 (he ▸ List.mem_map.2 ⟨(k, v), h, rfl⟩)
      rw [List.lookup_cons]
      have : (k == p.1) = false := by simpa using hne
      rw [this]
      exact lookup_of_mem l hn.2 k v h

theorem mem_of_lookup {A B : Type} [DecidableEq A] : ∀ (l : List (A × B)) (k : A) (v : B), l.lookup k = some v → (k, v) ∈ l
  | [], _, _, h => by cases h
  | p :: l, k, v, h => by
    rw [List.lookup_cons] at h
    split at h
    · rename_i hk
      cases h
      obtain rfl : k = p.1 := by simpa using hk
      exact List.mem_cons_self
    · exact List.mem_cons_of_mem _ (mem_of_lookup l k v h)

theorem keys_zip_sublist {A B : Type} : ∀ (l : List A) (m : List B), ((l.zip m).map Prod.fst).Sublist l
  | [], _ => by simp
  | _ :: _, [] => by simp
  | x :: l, y :: m => by
    simp only [List.zip_cons_cons, List.map_cons]
    exact (keys_zip_sublist l m).cons_cons _

theorem mem_zip_iff {A B : Type} {l : List A} {m : List B} {x : A} {y : B} : (x, y) ∈ l.zip m ↔ ∃ j : Nat, l[j]? = some x ∧ m[j]? = some y := by
  rw [List.mem_iff_getElem?]
  exact exists_congr fun j => by rw [List.getElem?_zip_eq_some]

theorem forall₂_find {A B : Type} {R : String × A → String × B → Prop} (hR : ∀ x y, R x y → x.1 = y.1) {a : String} : ∀ {l : List (String × A)}
    {m : List (String × B)}, List.Forall₂ R l m → (m.map Prod.fst).Nodup → ∀ e ∈ m, e.1 = a → ∃ o, l.find? (fun o => decide (o.1 = a)) = some o ∧ R o e
  | _, _, .nil, _, _, he, _ => by cases he
  | _, _, .cons (a := x) (b := y) (l₁ := l) (l₂ := m) h hs, hn, e, he, ha => by
    rw [List.map_cons, List.nodup_cons] at hn
    rw [List.find?_cons]
    rcases List.mem_cons.1 he with rfl | he
    · refine ⟨x, ?_, h⟩
      simp [hR _ _ h, ha]
    · have hne : ¬ x.1 = a := fun hx => hn.1 (List.mem_map.2 ⟨e, he, by rw [ha, ← hx, hR _ _ h]⟩)
      simp only [hne, decide_false]
      exact forall₂_find hR hs hn.2 e he ha

theorem forall₂_filter {A B : Type} {R : String × A → String × B → Prop} (hR : ∀ x y, R x y → x.1 = y.1) {a : String} : ∀ {l : List (String × A)}
    {m : List (String × B)}, List.Forall₂ R l m → List.Forall₂ R (l.filter (fun o => decide (o.1 ≠ a))) (m.filter (fun o => decide (o.1 ≠ a)))
  | _, _, .nil => .nil
  | _, _, .cons (a := x) (b := y) (l₁ := l) (l₂ := m) h hs => by
    have e := hR _ _ h
    by_cases hx : x.1 = a
    · rw [List.filter_cons_of_neg (by simpa using hx), List.filter_cons_of_neg (by simpa [← e] using hx)]
      exact forall₂_filter hR hs
    · rw [List.filter_cons_of_pos (by simpa using hx), List.filter_cons_of_pos (by simpa [← e] using hx)]
      exact .cons h (forall₂_filter hR hs)

theorem forall₂_get {A B : Type} {R : A → B → Prop} {l : List A} {m : List B} (h : List.Forall₂ R l m) {i : Nat} {y : B} (hy : m[i]? = some y) :
    ∃ x, l[i]? = some x ∧ R x y := by
  induction h generalizing i with
  | nil => simp at hy
  | cons h _ ih =>
    cases i with
    | zero => simp only [List.getElem?_cons_zero, Option.some.injEq] at hy ⊢; subst hy; exact ⟨_, rfl, h⟩
    | succ i => simp only [List.getElem?_cons_succ] at hy ⊢; exact ih hy

theorem forall₂_get_left {A B : Type} {R : A → B → Prop} {l : List A} {m : List B} (h : List.Forall₂ R l m) {i : Nat} {x : A} (hx : l[i]? = some x) :
    ∃ y, m[i]? = some y ∧ R x y := by
  obtain ⟨y, h1, h2⟩ := forall₂_get h.flip hx
  exact ⟨y, h1, h2⟩

section
variable {K : Type}

/-! ### Values -/

abbrev Full (K : Type) := List K × List (Grd.Val K) × List (Grd.Val K)

theorem valueKeys_nodup {df : Def} (hn : (df.cont ++ (df.disc ++ df.static)).Nodup) (v : Full K) :
    ((df.cont.zip (v.1.map Val.num) ++ (df.disc.zip v.2.1 ++ df.static.zip v.2.2)).map Prod.fst).Nodup := by
  rw [List.map_append, List.map_append]
  exact hn.sublist ((keys_zip_sublist _ _).append ((keys_zip_sublist _ _).append (keys_zip_sublist _ _)))

theorem value_cont {df : Def} (hn : (df.cont ++ (df.disc ++ df.static)).Nodup) {v : Full K} {x : String} {r : K} (h : (x, r) ∈ df.cont.zip v.1) :
    valueIn df v x = some (.num r) := by
  refine lookup_of_mem _ (valueKeys_nodup hn v) _ _ (List.mem_append_left _ ?_)
  rw [mem_zip_iff] at h ⊢
  obtain ⟨j, h1, h2⟩ := h
  exact ⟨j, h1, by rw [List.getElem?_map, h2]; rfl⟩

theorem value_disc {df : Def} (hn : (df.cont ++ (df.disc ++ df.static)).Nodup) {v : Full K} {x : String} {y : Grd.Val K}
    (h : (x, y) ∈ df.disc.zip v.2.1 ++ df.static.zip v.2.2) : valueIn df v x = some y :=
  lookup_of_mem _ (valueKeys_nodup hn v) _ _ (List.mem_append_right _ h)

variable [Field K] [LinearOrder K]

/-- A value in an interval of the rectangle. -/
theorem inside_zip {df : Def} {p : List K} {e : String × Ver.Seg K × List (Grd.Val K) × List (Grd.Val K)} (h : Inside p e.2.1.box) {x : String} {iv : Iv K}
    (hm : (x, iv) ∈ contPairs df (entry e)) : ∃ r, (x, r) ∈ df.cont.zip p ∧ iv.1 ≤ r ∧ r ≤ iv.2 := by
  obtain ⟨j, h1, h2⟩ := mem_zip_iff.1 hm
  obtain ⟨h3, h4⟩ := List.getElem?_zip_eq_some.1 h2
  obtain ⟨r, h5, h6⟩ := forall₂_get_left h.1 h3
  obtain ⟨r', h7, h8⟩ := forall₂_get h.2 h4
  rw [h5] at h7
  cases h7
  exact ⟨r, mem_zip_iff.2 ⟨j, h1, h5⟩, h6, h8⟩

/-- Every value lies in an interval of the rectangle. -/
theorem zip_inside {df : Def} {p : List K} {e : String × Ver.Seg K × List (Grd.Val K) × List (Grd.Val K)} (h : Inside p e.2.1.box) {x : String} {r : K}
    (hm : (x, r) ∈ df.cont.zip p) : ∃ iv, (x, iv) ∈ contPairs df (entry e) := by
  obtain ⟨j, h1, h2⟩ := mem_zip_iff.1 hm
  obtain ⟨lo, h3, _⟩ := forall₂_get h.1 h2
  obtain ⟨hi, h4, _⟩ := forall₂_get_left h.2 h2
  exact ⟨(lo, hi), mem_zip_iff.2 ⟨j, h1, List.getElem?_zip_eq_some.2 ⟨h3, h4⟩⟩⟩

/-- The state and the rectangles have the same agents with the same modes and static values. -/
def Same (snap : Ver.Spec.Snap K (Grd.Val K)) (sd : Ver.StateDict K (Grd.Val K)) : Prop :=
  List.Forall₂ (fun (x : String × List K × List (Grd.Val K) × List (Grd.Val K)) (y : String × Ver.Seg K × List (Grd.Val K) × List (Grd.Val K)) =>
    x.1 = y.1 ∧ x.2.2 = y.2.2) snap sd

theorem same_of_within {snap : Ver.Spec.Snap K (Grd.Val K)} {sd : Ver.StateDict K (Grd.Val K)} (h : Ver.Spec.Within snap sd) : Same snap sd :=
  h.imp fun _ _ h => ⟨h.1, h.2.2⟩

variable {sg : Sig} {a : String} {sd : Ver.StateDict K (Grd.Val K)} {e : String × Ver.Seg K × List (Grd.Val K) × List (Grd.Val K)} {s : Sensed K (Iv K)}

theorem shown_box (hs : Shown sg a sd e s) (hn : (sd.map Prod.fst).Nodup) (he : e ∈ sd) (hea : e.1 = a)
    (hown : (sg.own.cont ++ (sg.own.disc ++ sg.own.static)).Nodup)
    (hoth : ∀ n df, sg.others = some (n, df) → (df.cont ++ (df.disc ++ df.static)).Nodup) {snap : Ver.Spec.Snap K (Grd.Val K)}
    (hin : Ver.Spec.Within snap sd) : InSensed (view sg a snap) s := by
  refine ⟨?_, ?_⟩
  · intro k iv hk
    obtain ⟨x, rfl, hx⟩ := (hs.cont k iv).1 hk
    obtain ⟨o, ho, _, ho2, _⟩ := forall₂_find (fun _ _ h => h.1) hin hn e he hea
    obtain ⟨r, h1, h2⟩ := inside_zip ho2 hx
    refine ⟨r, ?_, h2⟩
    simp only [look, view, if_true, ho, Option.bind_some, value_cont hown h1, Option.getD_some]
  · intro l x ivs i iv hg hi
    obtain ⟨df, h1, h2⟩ := hs.contL l x ivs hg
    obtain ⟨o', h3, h4⟩ := forall₂_get h2 hi
    obtain ⟨o, h5, _, h6, _⟩ := forall₂_get (forall₂_filter (a := a) (fun _ _ h => h.1) hin) h3
    obtain ⟨r, h7, h8⟩ := inside_zip h6 h4
    refine ⟨r, ?_, h8⟩
    simp only [look, view, h1, if_true, h5, Option.bind_some, value_cont (hoth l df h1) h7, Option.getD_some]

theorem same_pairs {df : Def} {o : String × Full K} (h : o.2.2 = e.2.2) {x : String} {v : Grd.Val K} :
    (x, v) ∈ discPairs df (entry e) ↔ (x, v) ∈ df.disc.zip o.2.2.1 ++ df.static.zip o.2.2.2 := by
  rw [h]
  rfl

theorem shown_disc (hs : Shown sg a sd e s) (hn : (sd.map Prod.fst).Nodup) (he : e ∈ sd) (hea : e.1 = a)
    (hown : (sg.own.cont ++ (sg.own.disc ++ sg.own.static)).Nodup)
    (hoth : ∀ n df, sg.others = some (n, df) → (df.cont ++ (df.disc ++ df.static)).Nodup) {snap : Ver.Spec.Snap K (Grd.Val K)}
    (hin : Same snap sd) : DiscSensed (view sg a snap) s := by
  refine ⟨?_, ?_⟩
  · intro k v hk
    obtain ⟨x, rfl, hx⟩ := (hs.disc k v).1 hk
    obtain ⟨o, ho, _, ho2⟩ := forall₂_find (fun _ _ h => h.1) hin hn e he hea
    rw [same_pairs ho2] at hx
    simp only [look, view, if_true, ho, Option.bind_some, value_disc hown hx, Option.getD_some]
  · intro l x vs i v hg hi
    obtain ⟨df, h1, h2⟩ := hs.discL l x vs hg
    obtain ⟨o', h3, h4⟩ := forall₂_get h2 hi
    obtain ⟨o, h5, _, h6⟩ := forall₂_get (forall₂_filter (a := a) (fun _ _ h => h.1) hin) h3
    rw [same_pairs h6] at h4
    simp only [view, h1, if_true, h5, Option.bind_some, value_disc (hoth l df h1) h4, Option.getD_some]

theorem shown_reads (hs : Shown sg a sd e s) (hn : (sd.map Prod.fst).Nodup) (he : e ∈ sd) (hea : e.1 = a)
    (hown : (sg.own.cont ++ (sg.own.disc ++ sg.own.static)).Nodup) {snap : Ver.Spec.Snap K (Grd.Val K)}
    (hin : Same snap sd) : (fun k => Dict.get? s.disc k) = ownReads sg a snap := by
  obtain ⟨o, ho, _, ho2⟩ := forall₂_find (fun _ _ h => h.1) hin hn e he hea
  have hnd : ((sg.own.disc.zip o.2.2.1 ++ sg.own.static.zip o.2.2.2).map Prod.fst).Nodup := by
    rw [List.map_append]
    exact (List.nodup_append.1 hown).2.1.sublist ((keys_zip_sublist _ _).append (keys_zip_sublist _ _))
  funext k
  apply Option.ext
  intro v
  rw [hs.disc k v]
  constructor
  · rintro ⟨x, rfl, hx⟩
    rw [same_pairs ho2] at hx
    simp only [ownReads, if_true, ho, Option.bind_some]
    exact lookup_of_mem _ hnd _ _ hx
  · intro h
    cases k with
    | attr n x =>
      simp only [ownReads, ho, Option.bind_some] at h
      split at h
      · rename_i hne
        subst hne
        exact ⟨x, rfl, (same_pairs ho2).2 (mem_of_lookup _ _ _ h)⟩
      · cases h
    | _ => simp [ownReads] at h

theorem keyText_inj {n m x y : String} (hn : '.' ∉ n.toList) (hm : '.' ∉ m.toList) (h : keyText (.attr n x) = keyText (.attr m y)) : n = m ∧ x = y := by
  have h' : n ++ "." ++ x = m ++ "." ++ y := String.toList_inj.1 h
  obtain rfl := key_thing hn hm h'
  exact ⟨rfl, key_inj h'⟩

theorem get?_mapKey {A B C : Type} [DecidableEq A] [DecidableEq C] (g : A → C) : ∀ (d : Dict A B), (∀ p ∈ d, ∀ q ∈ d, g p.1 = g q.1 → p.1 = q.1) →
    ∀ t v, Dict.get? (d.map (fun kv => (g kv.1, kv.2))) t = some v ↔ ∃ k, g k = t ∧ (∃ w, (k, w) ∈ d) ∧ Dict.get? d k = some v
  | [], _, t, v => by simp [Dict.get?]
  | p :: d, hi, t, v => by
    have ih := get?_mapKey g d (fun q hq r hr => hi q (List.mem_cons_of_mem _ hq) r (List.mem_cons_of_mem _ hr)) t v
    rw [List.map_cons, Dict.get?_cons]
    split
    · rename_i hk
      constructor
      · intro h
        exact ⟨p.1, hk, ⟨p.2, List.mem_cons_self⟩, by rw [Dict.get?_cons, if_pos rfl]; exact h⟩
      · rintro ⟨k, h1, ⟨w, h2⟩, h3⟩
        have : p.1 = k := hi p List.mem_cons_self (k, w) h2 (by rw [h1]; exact hk)
        rw [Dict.get?_cons, if_pos this] at h3
        exact h3
    · rename_i hk
      rw [ih]
      constructor
      · rintro ⟨k, h1, ⟨w, h2⟩, h3⟩
        refine ⟨k, h1, ⟨w, List.mem_cons_of_mem _ h2⟩, ?_⟩
        rw [Dict.get?_cons, if_neg (fun he => hk (by rw [he, h1]))]
        exact h3
      · rintro ⟨k, h1, ⟨w, h2⟩, h3⟩
        have hne : p.1 ≠ k := fun he => hk (by rw [he, h1])
        rw [Dict.get?_cons, if_neg hne] at h3
        exact ⟨k, h1, ⟨v, Dict.mem_of_get? h3⟩, h3⟩

theorem shown_range (hs : Shown sg a sd e s) (hn : (sd.map Prod.fst).Nodup) (he : e ∈ sd) (hea : e.1 = a)
    (hown : (sg.own.cont ++ (sg.own.disc ++ sg.own.static)).Nodup) {snap : Ver.Spec.Snap K (Grd.Val K)}
    (hin : Ver.Spec.Within snap sd) : InRange (s.cont.map (fun kv => (keyText kv.1, kv.2))) (ownVars sg a snap) := by
  obtain ⟨o, ho, _, ho2, _⟩ := forall₂_find (fun _ _ h => h.1) hin hn e he hea
  have hmem : ∀ k w, (k, w) ∈ s.cont → ∃ x, k = .attr "ego" x := by
    intro k w hk
    have : (Dict.get? s.cont k).isSome := (Dict.isSome_get?_iff _ _).2 (List.mem_map.2 ⟨(k, w), hk, rfl⟩)
    obtain ⟨iv, hiv⟩ := Option.isSome_iff_exists.1 this
    obtain ⟨x, hx, _⟩ := (hs.cont k iv).1 hiv
    exact ⟨x, hx⟩
  have hchar : ∀ t iv, Dict.get? (s.cont.map (fun kv => (keyText kv.1, kv.2))) t = some iv ↔ ∃ x, keyText (.attr "ego" x) = t ∧ (x, iv) ∈ contPairs sg.own (entry e) := by
    intro t iv
    rw [get?_mapKey keyText]
    · constructor
      · rintro ⟨k, h1, _, h3⟩
        obtain ⟨x, rfl, hx⟩ := (hs.cont k iv).1 h3
        exact ⟨x, h1, hx⟩
      · rintro ⟨x, h1, hx⟩
        have := (hs.cont (.attr "ego" x) iv).2 ⟨x, rfl, hx⟩
        exact ⟨_, h1, ⟨iv, Dict.mem_of_get? this⟩, this⟩
    · rintro ⟨p, pv⟩ hp ⟨q, qv⟩ hq h
      obtain ⟨x, rfl⟩ := hmem p pv hp
      obtain ⟨y, rfl⟩ := hmem q qv hq
      rw [(keyText_inj (by decide) (by decide) h).2]
  intro t
  have hfind : ∀ x r, (x, r) ∈ sg.own.cont.zip o.2.1 → keyText (.attr "ego" x) = t → ownVars sg a snap t = some r := by
    intro x r hm ht
    unfold ownVars
    rw [ho, Option.bind_some]
    have hnd : ((sg.own.cont.zip o.2.1).map Prod.fst).Nodup := (List.nodup_append.1 hown).1.sublist (keys_zip_sublist _ _)
    have hf : (sg.own.cont.zip o.2.1).find? (fun xv => decide (("ego" ++ "." ++ xv.1).toList = t)) = some (x, r) := by
      cases hfd : (sg.own.cont.zip o.2.1).find? (fun xv => decide (("ego" ++ "." ++ xv.1).toList = t)) with
      | none =>
        have := List.find?_eq_none.1 hfd (x, r) hm
        simp only [decide_eq_true_eq] at this
        exact absurd ht this
      | some q =>
        have h1 := List.find?_some hfd
        have h2 := List.mem_of_find?_eq_some hfd
        simp only [decide_eq_true_eq] at h1
        have : x = q.1 := (keyText_inj (n := "ego") (m := "ego") (by decide) (by decide) (ht.trans h1.symm)).2
        have e1 := lookup_of_mem _ hnd _ _ hm
        have e2 := lookup_of_mem _ hnd q.1 q.2 h2
        rw [← this, e1] at e2
        cases e2
        rw [this]
    rw [hf]
    rfl
  cases hg : Dict.get? (s.cont.map (fun kv => (keyText kv.1, kv.2))) t with
  | some iv =>
    obtain ⟨x, h1, h2⟩ := (hchar t iv).1 hg
    obtain ⟨r, h3, h4⟩ := inside_zip ho2 h2
    exact ⟨r, hfind x r h3 h1, h4⟩
  | none =>
    show ownVars sg a snap t = none
    unfold ownVars
    rw [ho, Option.bind_some]
    cases hfd : (sg.own.cont.zip o.2.1).find? (fun xv => decide (("ego" ++ "." ++ xv.1).toList = t)) with
    | none => rfl
    | some q =>
      have h1 := List.find?_some hfd
      have h2 := List.mem_of_find?_eq_some hfd
      simp only [decide_eq_true_eq] at h1
      obtain ⟨iv, hiv⟩ := zip_inside (df := sg.own) (x := q.1) (r := q.2) ho2 h2
      rw [(hchar t iv).2 ⟨q.1, h1, hiv⟩] at hg
      cases hg

theorem shown_tmp (hs : Shown sg a sd e s) (i : Nat) : Dict.get? s.cont (.tmp i) = none := by
  cases h : Dict.get? s.cont (.tmp i) with
  | none => rfl
  | some iv =>
    obtain ⟨x, hx, _⟩ := (hs.cont _ iv).1 h
    cases hx

end

end Verif.Proofs.Asm
