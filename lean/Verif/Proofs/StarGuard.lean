import Verif.Spec.StarGuard
import Verif.Proofs.Guard3
import Verif.Proofs.StarReset

/-! Helpers for C70 and C71. -/

set_option autoImplicit false
set_option linter.unusedSectionVars false

namespace Verif.Proofs.StarGrd

open Verif Verif.Grd Verif.Grd.Spec Verif.Stars Verif.StarGrd Verif.StarGrd.Spec Verif.Proofs Finset

/-! ### texts -/

theorem agentOf_dotted (n a : Text) (h : '.' ∉ n) : agentOf (dotted n a) = n := by
  unfold agentOf dotted
  rw [List.takeWhile_append_of_pos]
  · simp
  · intro c hc
    simp only [ne_eq, decide_eq_true_eq]
    rintro rfl
    exact h hc

theorem attrOf_dotted (n a : Text) (h : '.' ∉ n) (ha : '.' ∉ a) : attrOf (dotted n a) = .ok a := by
  unfold attrOf dotted
  rw [List.dropWhile_append_of_pos]
  · have : ∀ a : Text, '.' ∉ a → a.takeWhile (fun c => !decide (c = '.')) = a := by
      intro a
      induction a with
      | nil => intro _; rfl
      | cons c a ih =>
        intro h
        simp only [List.mem_cons, not_or] at h
        rw [List.takeWhile_cons, if_pos (by simpa using Ne.symm h.1), ih h.2]
    simp [this a ha]
  · intro c hc
    simp only [ne_eq, decide_eq_true_eq]
    rintro rfl
    exact h hc

theorem dotted_inj (n n' a a' : Text) (h : '.' ∉ n) (h' : '.' ∉ n') (he : dotted n a = dotted n' a') : n = n' ∧ a = a' := by
  have h1 : n = n' := by
    have := congrArg agentOf he
    rwa [agentOf_dotted n a h, agentOf_dotted n' a' h'] at this
  subst h1
  unfold dotted at he
  exact ⟨rfl, by simpa using he⟩

theorem under_self (t : Text) (h : '.' ∉ t) : under t = t := by
  unfold under
  conv_rhs => rw [← List.map_id t]
  refine List.map_congr_left (fun c hc => ?_)
  have : c ≠ '.' := by rintro rfl; exact h hc
  simp [this]

theorem under_dotted (n a : Text) (h : '.' ∉ n) (ha : '.' ∉ a) : under (dotted n a) = n ++ '_' :: a := by
  have e1 := under_self n h
  have e2 := under_self a ha
  unfold under at e1 e2 ⊢
  unfold dotted
  rw [List.map_append, List.map_cons, e1, e2]
  simp

theorem dot_digits (i : Nat) : '.' ∉ Nat.toDigits 10 i := by
  intro h
  have := Nat.isDigit_of_mem_toDigits (by decide) (by decide) h
  revert this
  decide

theorem dot_elemText (l : Text) (i : Nat) (h : '.' ∉ l) : '.' ∉ elemText l i := by
  unfold elemText
  simp only [List.mem_append, List.mem_cons, not_or]
  exact ⟨h, by decide, dot_digits i⟩

theorem elemText_ne (l : Text) (i : Nat) : elemText l i ≠ l := by
  intro h
  have := congrArg List.length h
  simp [elemText] at this

theorem dot_ego : '.' ∉ "ego".toList := by decide +kernel

theorem sum_range_list {K : Type} [Field K] (n : Nat) (f : Nat → K) : ((List.range n).map f).sum = ∑ i ∈ range n, f i := by
  induction n with
  | zero => simp
  | succ n ih => rw [List.range_succ, List.map_append, List.sum_append, ih, Finset.sum_range_succ]; simp

/-! ### the sensor -/

section
variable {K : Type}

theorem setEgo_spec (s : StarSet K) : ∀ (vars : List Text) (d : Dict Text (Entry K)), vars.Nodup →
    (∀ v ∈ vars, dotted "ego".toList v ∉ d.map Prod.fst) →
    (setEgo vars s d).map Prod.fst = d.map Prod.fst ++ vars.map (dotted "ego".toList) ∧
    ∀ k, Dict.get? (setEgo vars s d) k = if k ∈ vars.map (dotted "ego".toList) then some (.one s) else Dict.get? d k
  | [], d, _, _ => by simp [setEgo]
  | v :: vars, d, hn, hd => by
    obtain ⟨hv, hn⟩ := List.nodup_cons.1 hn
    have h0 := hd v (by simp)
    obtain ⟨i1, i2⟩ := setEgo_spec s vars (Dict.set d (dotted "ego".toList v) (.one s)) hn (by
      intro v' hv'
      rw [Dict.keys_set, if_neg h0, List.mem_append, not_or]
      refine ⟨hd v' (by simp [hv']), ?_⟩
      rw [List.mem_singleton]
      intro he
      rw [(dotted_inj _ _ _ _ dot_ego dot_ego he).2] at hv'
      exact hv hv')
    have e : setEgo (v :: vars) s d = setEgo vars s (Dict.set d (dotted "ego".toList v) (.one s)) := rfl
    rw [e]
    constructor
    · rw [i1, Dict.keys_set, if_neg h0]; simp
    · intro k
      rw [i2, Dict.get?_set]
      by_cases h1 : k ∈ vars.map (dotted "ego".toList)
      · rw [if_pos h1, if_pos (by rw [List.map_cons]; exact List.mem_cons_of_mem _ h1)]
      · rw [if_neg h1]
        by_cases h2 : dotted "ego".toList v = k
        · rw [if_pos h2, if_pos (by simp [← h2])]
        · rw [if_neg h2, if_neg]
          rw [List.map_cons, List.mem_cons, not_or]
          exact ⟨fun h => h2 h.symm, h1⟩

theorem addOthers_spec (l : Text) (hl : '.' ∉ l) (s : StarSet K) (ss : List (StarSet K)) : ∀ (ovars : List Text) (d : Dict Text (Entry K)), ovars.Nodup →
    (∀ v ∈ ovars, Dict.get? d (dotted l v) = if ss.isEmpty then none else some (.many ss)) →
    (ovars.foldl (addOther l s) d).map Prod.fst = (if ss.isEmpty then d.map Prod.fst ++ ovars.map (dotted l) else d.map Prod.fst) ∧
    ∀ k, Dict.get? (ovars.foldl (addOther l s) d) k = if k ∈ ovars.map (dotted l) then some (.many (ss ++ [s])) else Dict.get? d k
  | [], d, _, _ => by simp
  | v :: ovars, d, hn, hd => by
    obtain ⟨hv, hn⟩ := List.nodup_cons.1 hn
    have h0 := hd v (by simp)
    have hstep : addOther l s d v = Dict.set d (dotted l v) (.many (ss ++ [s])) := by
      unfold addOther
      rw [h0]
      by_cases he : ss.isEmpty
      · rw [if_pos he]
        have : ss = [] := List.isEmpty_iff.1 he
        simp [this]
      · rw [if_neg he]
    obtain ⟨i1, i2⟩ := addOthers_spec l hl s ss ovars (Dict.set d (dotted l v) (.many (ss ++ [s]))) hn (by
      intro v' hv'
      rw [Dict.get?_set_ne]
      · exact hd v' (by simp [hv'])
      · intro he
        rw [(dotted_inj _ _ _ _ hl hl he).2] at hv
        exact hv hv')
    rw [List.foldl_cons, hstep]
    constructor
    · rw [i1, Dict.keys_set]
      by_cases he : ss.isEmpty
      · rw [if_pos he] at h0
        rw [if_pos he, if_pos he, if_neg ((Dict.get?_none_iff _ _).1 h0)]
        simp
      · rw [if_neg he] at h0
        rw [if_neg he, if_neg he, if_pos ((Dict.isSome_get?_iff _ _).1 (by rw [h0]; rfl))]
    · intro k
      rw [i2, Dict.get?_set]
      by_cases h1 : k ∈ ovars.map (dotted l)
      · rw [if_pos h1, if_pos (by rw [List.map_cons]; exact List.mem_cons_of_mem _ h1)]
      · rw [if_neg h1]
        by_cases h2 : dotted l v = k
        · rw [if_pos h2, if_pos (by simp [← h2])]
        · rw [if_neg h2, if_neg]
          rw [List.map_cons, List.mem_cons, not_or]
          exact ⟨fun h => h2 h.symm, h1⟩

/-- A step of the sensor. -/
def senseStep (vars : List Text) (l : Text) (ovars : List Text) (d : Dict Text (Entry K)) (a : Bool × StarSet K) : Dict Text (Entry K) :=
  if a.1 then setEgo vars a.2 d else ovars.foldl (addOther l a.2) d

theorem others_spec (vars : List Text) (l : Text) (hl : '.' ∉ l) (ovars : List Text) : ∀ (os ss : List (StarSet K)) (d : Dict Text (Entry K)),
    (os = [] ∨ ovars.Nodup) →
    (∀ v ∈ ovars, Dict.get? d (dotted l v) = if ss.isEmpty then none else some (.many ss)) →
    ((os.map (fun s => (false, s))).foldl (senseStep vars l ovars) d).map Prod.fst =
      (if ss.isEmpty ∧ ¬ os.isEmpty then d.map Prod.fst ++ ovars.map (dotted l) else d.map Prod.fst) ∧
    ∀ k, Dict.get? ((os.map (fun s => (false, s))).foldl (senseStep vars l ovars) d) k =
      if k ∈ ovars.map (dotted l) ∧ ¬ (ss ++ os).isEmpty then some (.many (ss ++ os)) else Dict.get? d k
  | [], ss, d, _, hd => by
    refine ⟨by simp, fun k => ?_⟩
    simp only [List.map_nil, List.foldl_nil, List.append_nil]
    split
    · next h =>
      obtain ⟨v, hv, rfl⟩ := List.mem_map.1 h.1
      rw [hd v hv, if_neg h.2]
    · rfl
  | s :: os, ss, d, ho, hd => by
    have hn : ovars.Nodup := ho.resolve_left (by simp)
    obtain ⟨a1, a2⟩ := addOthers_spec l hl s ss ovars d hn hd
    have hstep : senseStep vars l ovars d (false, s) = ovars.foldl (addOther l s) d := by simp [senseStep]
    rw [List.map_cons, List.foldl_cons, hstep]
    obtain ⟨b1, b2⟩ := others_spec vars l hl ovars os (ss ++ [s]) _ (.inr hn) (by
      intro v hv
      rw [a2, if_pos (List.mem_map_of_mem hv)]
      simp)
    constructor
    · rw [b1, a1]
      simp
    · intro k
      rw [b2, a2]
      by_cases hk : k ∈ ovars.map (dotted l)
      · simp [hk]
      · simp [hk]

end

/-! ### the dictionary -/

section
variable {K : Type} [Field K] [LinearOrder K]

/-- What the checks rely on. -/
structure Good (w : Agents K) (cont : Dict Text (Entry K)) : Prop where
  nodup : (cont.map Prod.fst).Nodup
  ego : (cont.map Prod.fst).filter (fun k => decide (agentOf k = "ego".toList)) = w.vars.map (fun v => dotted "ego".toList v.toList)
  many : w.stars ≠ [] → w.ovars ≠ [] → (cont.map Prod.fst).filter (fun k => decide (agentOf k = w.list.toList)) = w.ovars.map (fun v => dotted w.list.toList v.toList)
  entries : ∀ k e, Dict.get? cont k = some e → (∃ v ∈ w.vars, k = dotted "ego".toList v.toList ∧ e = .one w.star) ∨
    (∃ v ∈ w.ovars, k = dotted w.list.toList v.toList ∧ e = .many w.stars) ∨
    (∃ i s, w.stars[i]? = some s ∧ ∃ v ∈ w.ovars, k = dotted (elemText w.list.toList i) v.toList ∧ e = .one s)

theorem slot_ego (w : Agents K) (d : Nat) (h : d < w.vars.length) : Slot.ego d ∈ slots w := by simp [slots, h]

theorem slot_other (w : Agents K) (i d : Nat) (hi : i < w.stars.length) (h : d < w.ovars.length) : Slot.other i d ∈ slots w := by simp [slots, h, hi]

theorem slot_egoCoef (w : Agents K) (j : Nat) (h : j < w.star.basis.rows) : Slot.egoCoef j ∈ slots w := by simp [slots, h]

theorem slot_otherCoef (w : Agents K) (i j : Nat) (s : StarSet K) (hi : w.stars[i]? = some s) (h : j < s.basis.rows) : Slot.otherCoef i j ∈ slots w := by
  obtain ⟨hlt, rfl⟩ := List.getElem?_eq_some_iff.1 hi
  simp [slots, hlt, h]

theorem slot_inj (w : Agents K) (hu : Unmistakable w) {a b : Slot} (ha : a ∈ slots w) (hb : b ∈ slots w) (h : slotName w a = slotName w b) : a = b :=
  List.inj_on_of_nodup_map hu.apart ha hb h

theorem getD_lt {α : Type} (l : List α) (d : Nat) (a : α) (h : d < l.length) : l.getD d a = l[d] := by
  rw [List.getD_eq_getElem?_getD, List.getElem?_eq_getElem h]; rfl

theorem name_ego (w : Agents K) (d : Nat) (h : d < w.vars.length) : slotName w (.ego d) = "ego_".toList ++ w.vars[d].toList :=
  congrArg (fun v : String => "ego_".toList ++ v.toList) (getD_lt _ d "" h)

theorem name_other (w : Agents K) (i d : Nat) (h : d < w.ovars.length) :
    slotName w (.other i d) = elemText w.list.toList i ++ '_' :: w.ovars[d].toList :=
  congrArg (fun v : String => elemText w.list.toList i ++ '_' :: v.toList) (getD_lt _ d "" h)

theorem vars_nodup (w : Agents K) (hu : Unmistakable w) : w.vars.Nodup := by
  rw [List.nodup_iff_injective_get]
  intro a b hab
  have := slot_inj w hu (slot_ego w a.1 a.2) (slot_ego w b.1 b.2) ((name_ego w a.1 a.2).trans
      ((congrArg (fun v : String => "ego_".toList ++ v.toList) hab).trans (name_ego w b.1 b.2).symm))
  injection this with h
  exact Fin.ext h

theorem ovars_nodup (w : Agents K) (hu : Unmistakable w) (hne : w.stars ≠ []) : w.ovars.Nodup := by
  have h0 : 0 < w.stars.length := List.length_pos_iff.2 hne
  rw [List.nodup_iff_injective_get]
  intro a b hab
  have := slot_inj w hu (slot_other w 0 a.1 h0 a.2) (slot_other w 0 b.1 h0 b.2) ((name_other w 0 a.1 a.2).trans
      ((congrArg (fun v : String => elemText w.list.toList 0 ++ '_' :: v.toList) hab).trans (name_other w 0 b.1 b.2).symm))
  injection this with _ h
  exact Fin.ext h

theorem list_ne_ego (w : Agents K) (hu : Unmistakable w) (v : String) (hv : v ∈ w.ovars) : w.list.toList ≠ "ego".toList := by
  intro h
  refine (hu.ego v hv).1 ?_
  rw [h]
  exact (List.prefix_append _ _).isInfix

theorem elem_ne_ego (w : Agents K) (i : Nat) : elemText w.list.toList i ≠ "ego".toList := by
  intro h
  have : '_' ∈ elemText w.list.toList i := by simp [elemText]
  rw [h] at this
  revert this
  decide +kernel

theorem good_sensed (w : Agents K) (hu : Unmistakable w) (n : Nat) : Good w (sensed w n) := by
  obtain ⟨d1, d2, d3⟩ := hu.dots
  have hov : ∀ os : List (StarSet K), (∀ s ∈ os, s ∈ w.stars) → os = [] ∨ (w.ovars.map String.toList).Nodup := by
    intro os hos
    by_cases h : os = []
    · exact .inl h
    · obtain ⟨s, hs⟩ := List.exists_mem_of_ne_nil _ h
      exact .inr ((ovars_nodup w hu (List.ne_nil_of_mem (hos s hs))).map (fun _ _ h => String.toList_injective h))
  have hvn : (w.vars.map String.toList).Nodup := (vars_nodup w hu).map (fun _ _ h => String.toList_injective h)
  have hsplit : sensed w n = ((w.stars.drop n).map (fun s => (false, s))).foldl (senseStep (w.vars.map String.toList) w.list.toList (w.ovars.map String.toList))
      (setEgo (w.vars.map String.toList) w.star (((w.stars.take n).map (fun s => (false, s))).foldl
        (senseStep (w.vars.map String.toList) w.list.toList (w.ovars.map String.toList)) [])) := by
    unfold sensed senseStars
    rw [List.foldl_append, List.foldl_cons]
    rfl
  obtain ⟨a1, a2⟩ := others_spec (w.vars.map String.toList) w.list.toList d3 (w.ovars.map String.toList) (w.stars.take n) [] []
    (hov _ (fun s hs => List.mem_of_mem_take hs)) (by intro v _; simp)
  generalize hA : ((w.stars.take n).map (fun s => (false, s))).foldl (senseStep (w.vars.map String.toList) w.list.toList (w.ovars.map String.toList)) [] = A at *
  simp only [List.nil_append, List.isEmpty_nil, true_and, Dict.get?_nil] at a1 a2
  have hne : ∀ v ∈ w.vars, ∀ v' ∈ w.ovars, dotted "ego".toList v.toList ≠ dotted w.list.toList v'.toList := by
    intro v _ v' hv' he
    exact list_ne_ego w hu v' hv' (dotted_inj _ _ _ _ dot_ego d3 he).1.symm
  obtain ⟨b1, b2⟩ := setEgo_spec w.star (w.vars.map String.toList) A hvn (by
    intro v hv hmem
    rw [a1] at hmem
    split at hmem
    · obtain ⟨u, hu', rfl⟩ := List.mem_map.1 hv
      simp only [List.map_nil, List.nil_append, List.mem_map] at hmem
      obtain ⟨_, ⟨v', hv', rfl⟩, he⟩ := hmem
      exact hne u hu' v' hv' he.symm
    · simp at hmem)
  generalize hB : setEgo (w.vars.map String.toList) w.star A = B at *
  obtain ⟨c1, c2⟩ := others_spec (w.vars.map String.toList) w.list.toList d3 (w.ovars.map String.toList) (w.stars.drop n) (w.stars.take n) B
    (hov _ (fun s hs => List.mem_of_mem_drop hs)) (by
      intro v hv
      obtain ⟨u, hu', rfl⟩ := List.mem_map.1 hv
      rw [b2, if_neg, a2]
      · by_cases he : (w.stars.take n).isEmpty = true
        · rw [if_pos he, if_neg (fun h => h.2 he)]
        · rw [if_neg he, if_pos ⟨List.mem_map_of_mem hv, he⟩]
      · intro hmem
        simp only [List.mem_map] at hmem
        obtain ⟨_, ⟨v', hv', rfl⟩, he⟩ := hmem
        exact hne v' hv' u hu' he)
  rw [← hsplit] at c1 c2
  rw [List.take_append_drop] at c2
  have hkeys : (sensed w n).map Prod.fst = w.vars.map (fun v => dotted "ego".toList v.toList) ∧ w.stars = [] ∨
      (sensed w n).map Prod.fst = w.ovars.map (fun v => dotted w.list.toList v.toList) ++ w.vars.map (fun v => dotted "ego".toList v.toList) ∧ w.stars ≠ [] ∨
      (sensed w n).map Prod.fst = w.vars.map (fun v => dotted "ego".toList v.toList) ++ w.ovars.map (fun v => dotted w.list.toList v.toList) ∧ w.stars ≠ [] := by
    rw [c1, b1, a1]
    have e1 : List.map (dotted "ego".toList) (w.vars.map String.toList) = w.vars.map (fun v => dotted "ego".toList v.toList) := by
      rw [List.map_map]; rfl
    have e2 : List.map (dotted w.list.toList) (w.ovars.map String.toList) = w.ovars.map (fun v => dotted w.list.toList v.toList) := by
      rw [List.map_map]; rfl
    rw [e1, e2]
    by_cases ht : w.stars.take n = []
    · by_cases hd : w.stars.drop n = []
      · refine .inl ⟨?_, ?_⟩
        · rw [if_neg (by simp [hd]), if_neg (by simp [ht])]; rfl
        rw [← List.take_append_drop n w.stars, ht, hd]; rfl
      · have hd' : ¬ (w.stars.drop n).isEmpty = true := by simpa using hd
        rw [if_pos ⟨by simp [ht], hd'⟩, if_neg (by simp [ht])]
        refine .inr (.inr ⟨by simp, fun h => hd (by rw [h]; simp)⟩)
    · refine .inr (.inl ⟨?_, fun h => ht (by rw [h]; simp)⟩)
      rw [if_neg (fun h => ht (List.isEmpty_iff.1 h.1)), if_pos (fun h => ht (List.isEmpty_iff.1 h))]; rfl
  have n1 : (w.vars.map (fun v => dotted "ego".toList v.toList)).Nodup :=
    (vars_nodup w hu).map (fun a b h => String.toList_injective (dotted_inj _ _ _ _ dot_ego dot_ego h).2)
  have n2 : w.stars ≠ [] → (w.ovars.map (fun v => dotted w.list.toList v.toList)).Nodup := fun h =>
    (ovars_nodup w hu h).map (fun a b h => String.toList_injective (dotted_inj _ _ _ _ d3 d3 h).2)
  have f1 : (w.vars.map (fun v => dotted "ego".toList v.toList)).filter (fun k => decide (agentOf k = "ego".toList)) =
      w.vars.map (fun v => dotted "ego".toList v.toList) := by
    rw [List.filter_eq_self]
    intro k hk
    obtain ⟨v, _, rfl⟩ := List.mem_map.1 hk
    exact decide_eq_true (agentOf_dotted _ _ dot_ego)
  have f2 : (w.ovars.map (fun v => dotted w.list.toList v.toList)).filter (fun k => decide (agentOf k = "ego".toList)) = [] := by
    rw [List.filter_eq_nil_iff]
    intro k hk
    obtain ⟨v, hv, rfl⟩ := List.mem_map.1 hk
    rw [agentOf_dotted _ _ d3]
    simp only [decide_eq_true_eq]
    exact list_ne_ego w hu v hv
  have f3 : (w.ovars.map (fun v => dotted w.list.toList v.toList)).filter (fun k => decide (agentOf k = w.list.toList)) =
      w.ovars.map (fun v => dotted w.list.toList v.toList) := by
    rw [List.filter_eq_self]
    intro k hk
    obtain ⟨v, _, rfl⟩ := List.mem_map.1 hk
    exact decide_eq_true (agentOf_dotted _ _ d3)
  have f4 : ∀ v ∈ w.ovars, (w.vars.map (fun v => dotted "ego".toList v.toList)).filter (fun k => decide (agentOf k = w.list.toList)) = [] := by
    intro v' hv'
    rw [List.filter_eq_nil_iff]
    intro k hk
    obtain ⟨v, hv, rfl⟩ := List.mem_map.1 hk
    rw [agentOf_dotted _ _ dot_ego]
    simp only [decide_eq_true_eq]
    exact (list_ne_ego w hu v' hv').symm
  have hov' : w.ovars = [] ∨ ∃ v, v ∈ w.ovars := by
    cases w.ovars with
    | nil => exact .inl rfl
    | cons v _ => exact .inr ⟨v, by simp⟩
  have f5 : w.ovars ≠ [] → (w.vars.map (fun v => dotted "ego".toList v.toList)).filter (fun k => decide (agentOf k = w.list.toList)) = [] := by
    intro h
    obtain ⟨v, hv⟩ := hov'.resolve_left h
    exact f4 v hv
  have hdisj : ∀ x ∈ w.ovars.map (fun v => dotted w.list.toList v.toList), ∀ y ∈ w.vars.map (fun v => dotted "ego".toList v.toList), x ≠ y := by
    intro x hx y hy
    obtain ⟨v, hv, rfl⟩ := List.mem_map.1 hx
    obtain ⟨v', hv', rfl⟩ := List.mem_map.1 hy
    exact (hne v' hv' v hv).symm
  refine ⟨?_, ?_, ?_, ?_⟩
  · rcases hkeys with ⟨h, h'⟩ | ⟨h, h'⟩ | ⟨h, h'⟩ <;> rw [h]
    · exact n1
    · exact List.nodup_append.2 ⟨n2 h', n1, hdisj⟩
    · exact List.nodup_append.2 ⟨n1, n2 h', fun x hx y hy => (hdisj y hy x hx).symm⟩
  · rcases hkeys with ⟨h, h'⟩ | ⟨h, h'⟩ | ⟨h, h'⟩ <;> rw [h]
    · exact f1
    · rw [List.filter_append, f1, f2]; rfl
    · rw [List.filter_append, f1, f2, List.append_nil]
  · intro hs hvs
    rcases hkeys with ⟨h, h'⟩ | ⟨h, h'⟩ | ⟨h, h'⟩
    · exact absurd h' hs
    · rw [h, List.filter_append, f3, f5 hvs, List.append_nil]
    · rw [h, List.filter_append, f3, f5 hvs]; rfl
  · intro k e he
    rw [c2] at he
    split at he
    · next h =>
      injection he with he
      obtain ⟨_, hm, rfl⟩ := List.mem_map.1 h.1
      obtain ⟨v, hv, rfl⟩ := List.mem_map.1 hm
      exact .inr (.inl ⟨v, hv, rfl, he.symm⟩)
    · next h =>
      rw [b2] at he
      split at he
      · next h' =>
        injection he with he
        obtain ⟨_, hm, rfl⟩ := List.mem_map.1 h'
        obtain ⟨v, hv, rfl⟩ := List.mem_map.1 hm
        exact .inl ⟨v, hv, rfl, he.symm⟩
      · rw [a2] at he
        split at he
        · next h' =>
          refine absurd ⟨h'.1, fun h0 => h'.2 ?_⟩ h
          rw [List.isEmpty_iff.1 h0]; simp
        · simp at he


theorem elemText_inj (w : Agents K) (hu : Unmistakable w) (i i' : Nat) (hi : i < w.stars.length) (hi' : i' < w.stars.length) (v v' : String)
    (hv : v ∈ w.ovars) (hv' : v' ∈ w.ovars) (h : dotted (elemText w.list.toList i) v.toList = dotted (elemText w.list.toList i') v'.toList) :
    i = i' ∧ v = v' := by
  obtain ⟨d1, d2, d3⟩ := hu.dots
  obtain ⟨e1, e2⟩ := dotted_inj _ _ _ _ (dot_elemText _ i d3) (dot_elemText _ i' d3) h
  have e3 := String.toList_injective e2
  subst e3
  obtain ⟨d, hd, rfl⟩ := List.getElem_of_mem hv
  have := slot_inj w hu (slot_other w i d hi hd) (slot_other w i' d hi' hd) (by rw [name_other w i d hd, name_other w i' d hd, e1])
  injection this with h1 _
  exact ⟨h1, rfl⟩

theorem good_elem (w : Agents K) (hu : Unmistakable w) (cont cont' : Dict Text (Entry K)) (hg : Good w cont) (k : Key)
    (hk : (∃ v ∈ w.vars, k = .attr "ego" v) ∨ (∃ i < w.stars.length, ∃ v ∈ w.ovars, k = .elem w.list i v)) (h : addElemStar cont k = .ok cont') :
    Good w cont' := by
  obtain ⟨d1, d2, d3⟩ := hu.dots
  rcases hk with ⟨v, hv, rfl⟩ | ⟨i, hi, v, hv, rfl⟩
  · cases h; exact hg
  · simp only [addElemStar] at h
    split at h
    · next ss hss =>
      have hss' : ss = w.stars := by
        rcases hg.entries _ _ hss with ⟨_, _, _, he⟩ | ⟨_, _, _, he⟩ | ⟨_, _, _, _, _, _, he⟩
        · cases he
        · injection he
        · cases he
      subst hss'
      rw [List.getElem?_eq_getElem hi] at h
      injection h with h
      subst h
      have hag : agentOf (keyText (.elem w.list i v)) = elemText w.list.toList i := agentOf_dotted _ _ (dot_elemText _ i d3)
      refine ⟨Dict.nodup_set hg.nodup _ _, ?_, ?_, ?_⟩
      · rw [Dict.keys_set]
        split
        · exact hg.ego
        · rw [List.filter_append, hg.ego]
          have : ([keyText (.elem w.list i v)] : List Text).filter (fun k => decide (agentOf k = "ego".toList)) = [] := by
            rw [List.filter_eq_nil_iff]
            intro k hk
            rw [List.mem_singleton.1 hk, hag]
            simp only [decide_eq_true_eq]
            exact elem_ne_ego w i
          rw [this, List.append_nil]
      · intro h1 h2
        rw [Dict.keys_set]
        split
        · exact hg.many h1 h2
        · rw [List.filter_append, hg.many h1 h2]
          have : ([keyText (.elem w.list i v)] : List Text).filter (fun k => decide (agentOf k = w.list.toList)) = [] := by
            rw [List.filter_eq_nil_iff]
            intro k hk
            rw [List.mem_singleton.1 hk, hag]
            simp only [decide_eq_true_eq]
            exact elemText_ne _ i
          rw [this, List.append_nil]
      · intro k e he
        rw [Dict.get?_set] at he
        split at he
        · next hk =>
          injection he with he
          exact .inr (.inr ⟨i, _, List.getElem?_eq_getElem hi, v, hv, hk.symm, he.symm⟩)
        · exact hg.entries k e he
    · cases h; exact hg

theorem good_elems (w : Agents K) (hu : Unmistakable w) (ks : List Key)
    (hk : ∀ k ∈ ks, (∃ v ∈ w.vars, k = .attr "ego" v) ∨ (∃ i < w.stars.length, ∃ v ∈ w.ovars, k = .elem w.list i v))
    (cont cont' : Dict Text (Entry K)) (hg : Good w cont) (h : ks.foldlM addElemStar cont = .ok cont') : Good w cont' :=
  foldlM_inv h hg (fun b a b' ha hb hstep => good_elem w hu b b' hb a (hk a ha) hstep)

/-! ### the solver variables of an agent -/

theorem agentVars_ego (w : Agents K) (hu : Unmistakable w) (cont : Dict Text (Entry K)) (hg : Good w cont) :
    agentVars cont "ego".toList = .ok (w.vars.map (fun v => "ego_".toList ++ v.toList)) := by
  obtain ⟨d1, d2, d3⟩ := hu.dots
  unfold agentVars
  rw [if_neg (by decide +kernel), if_pos (by decide +kernel)]
  have hstep : (varNames cont).filter (fun k => decide ("ego".toList <:+: k)) =
      ((cont.map Prod.fst).filter (fun k => decide (agentOf k = "ego".toList))).map under := by
    unfold varNames
    have : cont.map (fun kv => under kv.1) = (cont.map Prod.fst).map under := by rw [List.map_map]; rfl
    rw [this, List.filter_map]
    congr 1
    refine List.filter_congr (fun k hk => ?_)
    obtain ⟨e, he⟩ := Option.isSome_iff_exists.1 ((Dict.isSome_get?_iff _ _).2 hk)
    simp only [Function.comp_apply, decide_eq_decide]
    rcases hg.entries k e he with ⟨v, hv, rfl, -⟩ | ⟨v, hv, rfl, -⟩ | ⟨i, s, hi, v, hv, rfl, -⟩
    · rw [agentOf_dotted _ _ dot_ego, under_dotted _ _ dot_ego (d1 v hv)]
      exact ⟨fun _ => rfl, fun _ => (List.prefix_append _ _).isInfix⟩
    · rw [agentOf_dotted _ _ d3, under_dotted _ _ d3 (d2 v hv)]
      exact ⟨fun h => absurd h (hu.ego v hv).1, fun h => absurd h (list_ne_ego w hu v hv)⟩
    · rw [agentOf_dotted _ _ (dot_elemText _ i d3), under_dotted _ _ (dot_elemText _ i d3) (d2 v hv)]
      exact ⟨fun h => absurd h ((hu.ego v hv).2 i (List.getElem?_eq_some_iff.1 hi).1), fun h => absurd h (elem_ne_ego w i)⟩
  rw [hstep, hg.ego, List.map_map]
  refine congrArg Except.ok (List.map_congr_left (fun v hv => ?_))
  rw [Function.comp_apply, under_dotted _ _ dot_ego (d1 v hv)]
  have : "ego_".toList = "ego".toList ++ ['_'] := by decide +kernel
  rw [this, List.append_assoc]
  rfl

theorem agentVars_elem (w : Agents K) (hu : Unmistakable w) (cont : Dict Text (Entry K)) (hg : Good w cont) (i : Nat) (hi : i < w.stars.length)
    (hov : w.ovars ≠ []) :
    agentVars cont (elemText w.list.toList i) = .ok (w.ovars.map (fun v => elemText w.list.toList i ++ '_' :: v.toList)) := by
  obtain ⟨d1, d2, d3⟩ := hu.dots
  have hne : w.stars ≠ [] := List.ne_nil_of_length_pos (by omega)
  unfold agentVars
  rw [if_neg (hu.tmp i hi), if_neg (by simp [elemText])]
  have hfil : (cont.filter (fun kv => kv.2.isMany)).map Prod.fst = w.ovars.map (fun v => dotted w.list.toList v.toList) := by
    rw [← hg.many hne hov, List.filter_map]
    congr 1
    refine List.filter_congr (fun kv hkv => ?_)
    have he := Dict.get?_of_mem hg.nodup hkv
    rw [Function.comp_apply]
    rcases hg.entries kv.1 kv.2 he with ⟨v, hv, h1, h2⟩ | ⟨v, hv, h1, h2⟩ | ⟨i, s, hi, v, hv, h1, h2⟩
    · rw [h1, h2, agentOf_dotted _ _ dot_ego]
      obtain ⟨v', hv'⟩ := List.exists_mem_of_ne_nil _ hov
      exact (decide_eq_false (Ne.symm (list_ne_ego w hu v' hv'))).symm
    · rw [h1, h2, agentOf_dotted _ _ d3]
      exact (decide_eq_true rfl).symm
    · rw [h1, h2, agentOf_dotted _ _ (dot_elemText _ i d3)]
      exact (decide_eq_false (elemText_ne _ i)).symm
  rw [mapM_ok_iff]
  have hall : List.Forall₂ (fun (kv : Text × Entry K) (v : String) => kv.1 = dotted w.list.toList v.toList ∧ v ∈ w.ovars)
      (cont.filter (fun kv => kv.2.isMany)) w.ovars := by
    have h1 : List.Forall₂ (fun (k : Text) (v : String) => k = dotted w.list.toList v.toList ∧ v ∈ w.ovars)
        ((cont.filter (fun kv => kv.2.isMany)).map Prod.fst) w.ovars := by
      rw [hfil, List.forall₂_map_left_iff, List.forall₂_same]
      exact fun v hv => ⟨rfl, hv⟩
    rwa [List.forall₂_map_left_iff] at h1
  rw [List.forall₂_map_right_iff]
  refine hall.imp (fun kv v h => ?_)
  rw [h.1, attrOf_dotted _ _ d3 (d2 v h.2)]
  rfl

end

end Verif.Proofs.StarGrd
