import Verif.Spec.Tracks
import Verif.Proofs.Basic
import Mathlib.Data.List.Induction

/-!
C100: the lanes that the agents know, for all sequences of `set_map` and `add_agent`.
-/

set_option autoImplicit false

namespace Verif.Props
open Verif.Tracks Verif.Tracks.Spec

namespace TracksAux

theorem addLane_spec (ms : List String) (l : String) : ∃ ms', addLane (some ms) l = some ms' ∧ ms <+: ms' ∧ (ms.Nodup → ms'.Nodup) ∧ ∀ x, x ∈ ms' ↔ x ∈ ms ∨ x = l := by
  by_cases h : l ∈ ms
  · refine ⟨ms, by simp [addLane, h], List.prefix_refl _, id, fun x => ⟨Or.inl, ?_⟩⟩
    rintro (hx | rfl)
    exacts [hx, h]
  · refine ⟨ms ++ [l], by simp [addLane, h], List.prefix_append _ _, fun hn => ?_, fun x => by simp⟩
    rw [List.nodup_append]
    refine ⟨hn, by simp, ?_⟩
    rintro a ha b hb rfl
    simp only [List.mem_singleton] at hb
    exact h (hb ▸ ha)

theorem update_spec (ms lanes : List String) : ∃ ms', updateLanes (some ms) lanes = some ms' ∧ ms <+: ms' ∧ (ms.Nodup → ms'.Nodup) ∧ ∀ x, x ∈ ms' ↔ x ∈ ms ∨ x ∈ lanes := by
  induction lanes generalizing ms with
  | nil => exact ⟨ms, rfl, List.prefix_refl _, id, by simp⟩
  | cons l lanes ih =>
    obtain ⟨m1, e1, p1, n1, i1⟩ := addLane_spec ms l
    obtain ⟨m2, e2, p2, n2, i2⟩ := ih m1
    refine ⟨m2, ?_, p1.trans p2, n2 ∘ n1, fun x => ?_⟩
    · unfold updateLanes at e2 ⊢
      rw [List.foldl_cons, e1, e2]
    · rw [i2, i1, List.mem_cons, or_assoc]

theorem update_none (lanes : List String) : updateLanes none lanes = none := by
  induction lanes with
  | nil => rfl
  | cons l lanes ih => exact ih

theorem get_map (d : Dict String (Option (List String))) (f : Option (List String) → Option (List String)) (id : String) :
    Dict.get? (d.map fun p => (p.1, f p.2)) id = (Dict.get? d id).map f := by
  induction d with
  | nil => rfl
  | cons p d ih =>
    obtain ⟨k, v⟩ := p
    rw [List.map_cons, Dict.get?_cons, Dict.get?_cons, ih]
    split <;> rfl

theorem map_set (d : Dict String (Option (List String))) (f : Option (List String) → Option (List String)) (id : String) (v : Option (List String)) :
    (Dict.set d id v).map (fun p => (p.1, f p.2)) = Dict.set (d.map fun p => (p.1, f p.2)) id (f v) := by
  induction d with
  | nil => rfl
  | cons p d ih =>
    obtain ⟨k, w⟩ := p
    simp only [Dict.set, List.map_cons]
    split
    · rfl
    · rw [List.map_cons, ih]

def isMap (c : Call) : Bool := c matches .setMap _

theorem lastMap_append (a b : List Call) : lastMap (a ++ b) = if b.any isMap then lastMap b else lastMap a := by
  induction a with
  | nil =>
    have : ∀ b : List Call, b.any isMap = false → lastMap b = [] := by
      intro b
      induction b with
      | nil => intro _; rfl
      | cons c b ih =>
        intro h
        rw [List.any_cons, Bool.or_eq_false_iff] at h
        cases c with
        | setMap => simp [isMap] at h
        | addAgent => exact ih h.2
        | swapLogic => exact ih h.2
    rw [List.nil_append]
    split
    · rfl
    · next h => exact this b (by simpa using h)
  | cons c a ih =>
    cases c with
    | setMap l =>
      show (if (a ++ b).any isMap then lastMap (a ++ b) else l) = if b.any isMap then lastMap b else if a.any isMap then lastMap a else l
      rw [ih, List.any_append]
      by_cases h : b.any isMap
      · simp [h]
      · simp [h]
    | addAgent => exact ih
    | swapLogic => exact ih

/-- What holds of an agent that was added with `own`, after the calls `post`. -/
structure Knows (own : Option (List String)) (pre post : List Call) (e : Option (List String)) : Prop where
  no : own = none → e = none
  yes : ∀ ms, own = some ms → ∃ ms', e = some ms' ∧ ms <+: ms' ∧ (ms.Nodup → ms'.Nodup) ∧ ∀ x, x ∈ ms' ↔ x ∈ ms ∨ x ∈ lastMap pre ∨ ∃ lanes, .setMap lanes ∈ post ∧ x ∈ lanes

theorem run_append (a : List Call) (c : Call) : run (a ++ [c]) = (run a).bind fun s => call s c := by
  unfold run
  rw [List.foldlM_append]
  show (Except.bind _ fun s => Except.bind _ _) = _
  congr 1
  funext s
  cases call s c <;> rfl

theorem main (cs : List Call) (hsw : ∀ id m, .swapLogic id m ∉ cs) : ∃ s, run cs = .ok s ∧ s.lanes = lastMap cs ∧
    (∀ id own pre post, AddedAt cs id own pre post → ∃ e, Dict.get? s.agents id = some e ∧ Knows own pre post e) ∧
    ∀ id e, Dict.get? s.agents id = some e → ∃ own pre post, AddedAt cs id own pre post := by
  induction cs using List.reverseRecOn with
  | nil =>
    refine ⟨{}, rfl, rfl, ?_, ?_⟩
    · rintro id own pre post ⟨h, -⟩
      simp at h
    · intro id e h
      simp [Dict.get?] at h
  | append_singleton cs c ih =>
    obtain ⟨s, h1, h2, h3, h4⟩ := ih fun id m h => hsw id m (List.mem_append_left _ h)
    rw [run_append, h1]
    show ∃ s', call s c = _ ∧ _
    have split : ∀ id own pre post, AddedAt (cs ++ [c]) id own pre post → (post = [] ∧ pre = cs ∧ c = .addAgent id own) ∨ ∃ post', post = post' ++ [c] ∧ AddedAt cs id own pre post' := by
      rintro id own pre post ⟨e, hn⟩
      rcases List.eq_nil_or_concat post with rfl | ⟨post', c', rfl⟩
      · obtain ⟨rfl, e2⟩ := List.append_inj' e rfl
        exact Or.inl ⟨rfl, rfl, by simpa using e2⟩
      · rw [List.concat_eq_append] at e hn ⊢
        have e' : cs ++ [c] = (pre ++ .addAgent id own :: post') ++ [c'] := by rw [e]; simp
        obtain ⟨e1, e2⟩ := List.append_inj' e' rfl
        have : c' = c := by simpa using e2.symm
        subst this
        exact Or.inr ⟨post', rfl, e1, fun m hm => hn m (List.mem_append_left _ hm)⟩
    cases c with
    | swapLogic id m => exact absurd (by simp) (hsw id m)
    | setMap lanes =>
      refine ⟨_, rfl, ?_, ?_, ?_⟩
      · rw [lastMap_append]; rfl
      · intro id own pre post h
        rcases split id own pre post h with ⟨-, -, hc⟩ | ⟨post', rfl, hc⟩
        · simp at hc
        · obtain ⟨e, he, kn⟩ := h3 id own pre post' hc
          refine ⟨updateLanes e lanes, ?_, ?_, ?_⟩
          · show Dict.get? (s.agents.map _) id = _
            rw [get_map s.agents (fun m => updateLanes m lanes), he]
            rfl
          · intro ho
            rw [kn.no ho, update_none]
          · intro ms ho
            obtain ⟨m1, rfl, p1, n1, i1⟩ := kn.yes ms ho
            obtain ⟨m2, e2, p2, n2, i2⟩ := update_spec m1 lanes
            refine ⟨m2, e2, p1.trans p2, n2 ∘ n1, fun x => ?_⟩
            rw [i2, i1]
            constructor
            · rintro ((h | h | ⟨l, h, hx⟩) | h)
              · exact Or.inl h
              · exact Or.inr (Or.inl h)
              · exact Or.inr (Or.inr ⟨l, by simp [h], hx⟩)
              · exact Or.inr (Or.inr ⟨lanes, by simp, h⟩)
            · rintro (h | h | ⟨l, h, hx⟩)
              · exact Or.inl (Or.inl h)
              · exact Or.inl (Or.inr (Or.inl h))
              · rw [List.mem_append, List.mem_singleton] at h
                rcases h with h | h
                · exact Or.inl (Or.inr (Or.inr ⟨l, h, hx⟩))
                · cases h; exact Or.inr hx
      · intro id e h
        change Dict.get? (s.agents.map _) id = _ at h
        rw [get_map s.agents (fun m => updateLanes m lanes)] at h
        obtain ⟨e', he, -⟩ := Option.map_eq_some_iff.1 h
        obtain ⟨own, pre, post, e1, e2⟩ := h4 id e' he
        exact ⟨own, pre, post ++ [.setMap lanes], by rw [e1]; simp, fun m hm => by
          rw [List.mem_append, List.mem_singleton] at hm
          rcases hm with hm | hm
          · exact e2 m hm
          · cases hm⟩
    | addAgent i m =>
      refine ⟨_, rfl, ?_, ?_, ?_⟩
      · rw [lastMap_append]; exact h2
      · intro id own pre post h
        rcases split id own pre post h with ⟨rfl, rfl, hc⟩ | ⟨post', rfl, hc⟩
        · cases hc
          refine ⟨updateLanes m s.lanes, Dict.get?_set_self _ _ _, ?_, ?_⟩
          · intro ho
            rw [ho, update_none]
          · rintro ms rfl
            obtain ⟨m2, e2, p2, n2, i2⟩ := update_spec ms s.lanes
            refine ⟨m2, e2, p2, n2, fun x => ?_⟩
            rw [i2, h2]
            simp
        · have hne : i ≠ id := by
            rintro rfl
            exact h.2 m (by simp)
          obtain ⟨e, he, kn⟩ := h3 id own pre post' hc
          refine ⟨e, ?_, kn.no, ?_⟩
          · show Dict.get? (Dict.set s.agents i _) id = _
            rw [Dict.get?_set_ne _ _ _ _ hne, he]
          · intro ms ho
            obtain ⟨m1, e1, p1, n1, i1⟩ := kn.yes ms ho
            refine ⟨m1, e1, p1, n1, fun x => ?_⟩
            rw [i1]
            simp
      · intro id e h
        by_cases hi : i = id
        · subst hi
          exact ⟨m, cs, [], rfl, by simp⟩
        · change Dict.get? (Dict.set s.agents i _) id = _ at h
          rw [Dict.get?_set_ne _ _ _ _ hi] at h
          obtain ⟨own, pre, post, e1, e2⟩ := h4 id e h
          exact ⟨own, pre, post ++ [.addAgent i m], by rw [e1]; simp, fun m' hm => by
            rw [List.mem_append, List.mem_singleton] at hm
            rcases hm with hm | hm
            · exact e2 m' hm
            · cases hm; exact hi rfl⟩

theorem lastMap_mem (pre post : List Call) (c : Call) (hc : isMap c = false) (x : String) (h : x ∈ lastMap (pre ++ c :: post)) :
    x ∈ lastMap pre ∨ ∃ lanes, .setMap lanes ∈ post ∧ x ∈ lanes := by
  rw [lastMap_append, List.any_cons, hc, Bool.false_or] at h
  split at h
  · right
    have : lastMap (c :: post) = lastMap post := by cases c <;> first | rfl | simp [isMap] at hc
    rw [this] at h
    clear this
    induction post with
    | nil => simp [lastMap] at h
    | cons d post ih =>
      cases d with
      | setMap l =>
        by_cases hp : post.any isMap
        · have h' : x ∈ lastMap post := by
            change x ∈ (if post.any isMap then lastMap post else l) at h
            rwa [if_pos hp] at h
          obtain ⟨l', h1, h2⟩ := ih hp h'
          exact ⟨l', List.mem_cons_of_mem _ h1, h2⟩
        · change x ∈ (if post.any isMap then lastMap post else l) at h
          rw [if_neg hp] at h
          exact ⟨l, List.mem_cons_self, h⟩
      | addAgent i m =>
        obtain ⟨l', h1, h2⟩ := ih (by simpa [isMap] using ‹List.any _ _ = true›) h
        exact ⟨l', List.mem_cons_of_mem _ h1, h2⟩
      | swapLogic i m =>
        obtain ⟨l', h1, h2⟩ := ih (by simpa [isMap] using ‹List.any _ _ = true›) h
        exact ⟨l', List.mem_cons_of_mem _ h1, h2⟩
  · exact Or.inl h

end TracksAux
open TracksAux

/-- **C100** (partial: `swap_dl` is not called). After any sequence of `set_map` and `add_agent`, an agent with a `TrackMode` knows every lane of the current
map. Its own modes come first and no mode is added twice. The modes are exactly its own, the lanes of the map when it was added and the lanes of the maps set
since. An agent without `TrackMode` gets none. -/
theorem C100_known_partial (cs : List Call) (hsw : ∀ id m, .swapLogic id m ∉ cs) (id : String) (own : Option (List String)) (pre post : List Call) (hadd : AddedAt cs id own pre post) :
    ∃ s e, run cs = .ok s ∧ Dict.get? s.agents id = some e ∧ (own = none → e = none) ∧
      ∀ ms, own = some ms → ∃ ms', e = some ms' ∧ (∀ lane ∈ lastMap cs, lane ∈ ms') ∧ ms <+: ms' ∧ (ms.Nodup → ms'.Nodup) ∧
        ∀ x, x ∈ ms' ↔ x ∈ ms ∨ x ∈ lastMap pre ∨ ∃ lanes, .setMap lanes ∈ post ∧ x ∈ lanes := by
  obtain ⟨s, h1, -, h3, -⟩ := main cs hsw
  obtain ⟨e, he, kn⟩ := h3 id own pre post hadd
  refine ⟨s, e, h1, he, kn.no, fun ms ho => ?_⟩
  obtain ⟨ms', e1, p, n, i⟩ := kn.yes ms ho
  refine ⟨ms', e1, fun lane hl => (i lane).2 (Or.inr ?_), p, n, i⟩
  rw [hadd.1] at hl
  exact lastMap_mem pre post _ rfl lane hl

/-- The agents of the scenario are those that were added. -/
theorem C100_agents_partial (cs : List Call) (hsw : ∀ id m, .swapLogic id m ∉ cs) : ∃ s, run cs = .ok s ∧ s.lanes = lastMap cs ∧
    ∀ id, (∃ e, Dict.get? s.agents id = some e) ↔ ∃ own, .addAgent id own ∈ cs := by
  obtain ⟨s, h1, h2, h3, h4⟩ := main cs hsw
  refine ⟨s, h1, h2, fun id => ⟨?_, ?_⟩⟩
  · rintro ⟨e, he⟩
    obtain ⟨own, pre, post, h, -⟩ := h4 id e he
    exact ⟨own, by rw [h]; simp⟩
  · rintro ⟨own, ho⟩
    have : ∀ cs : List Call, (∃ own, Call.addAgent id own ∈ cs) → ∃ own pre post, AddedAt cs id own pre post := by
      intro cs
      induction cs with
      | nil => rintro ⟨_, h⟩; simp at h
      | cons c cs ih =>
        rintro ⟨o, h⟩
        by_cases h' : ∃ own, Call.addAgent id own ∈ cs
        · obtain ⟨o, pre, post, e, hn⟩ := ih h'
          exact ⟨o, c :: pre, post, by rw [e]; rfl, hn⟩
        · rcases List.mem_cons.1 h with rfl | h
          · exact ⟨o, [], cs, rfl, fun m hm => h' ⟨m, hm⟩⟩
          · exact absurd ⟨o, h⟩ h'
    obtain ⟨own, pre, post, h⟩ := this cs ⟨own, ho⟩
    obtain ⟨e, he, -⟩ := h3 id own pre post h
    exact ⟨e, he⟩

/-- **C100**: it does not matter whether the map is set before, between or after the agents are added. -/
theorem C100_order (a b : List (String × Option (List String))) (lanes : List String) :
    run (a.map (fun p => .addAgent p.1 p.2) ++ .setMap lanes :: b.map fun p => .addAgent p.1 p.2) =
      run (.setMap lanes :: (a ++ b).map fun p => .addAgent p.1 p.2) := by
  have adds : ∀ (l : List (String × Option (List String))) (s : State), (l.map fun p => Call.addAgent p.1 p.2).foldlM call s =
      .ok { s with agents := l.foldl (fun d p => Dict.set d p.1 (updateLanes p.2 s.lanes)) s.agents } := by
    intro l
    induction l with
    | nil => intro s; rfl
    | cons p l ih =>
      intro s
      rw [List.map_cons, List.foldlM_cons]
      show (l.map fun p => Call.addAgent p.1 p.2).foldlM call (addAgent s p.1 p.2) = _
      rw [ih]
      rfl
  unfold run
  rw [List.foldlM_append, adds]
  show (Call.setMap lanes :: _).foldlM call _ = _
  rw [List.foldlM_cons, List.foldlM_cons]
  show List.foldlM call (setMap _ lanes) _ = List.foldlM call (setMap _ lanes) _
  rw [adds, adds, List.foldl_append]
  unfold setMap
  simp only [List.map_nil]
  congr 3
  show (List.foldl (fun d p => Dict.set d p.1 p.2) [] a).map _ = _
  induction a using List.reverseRecOn with
  | nil => rfl
  | append_singleton a p ih =>
    rw [List.foldl_append, List.foldl_append, List.foldl_cons, List.foldl_nil, List.foldl_cons, List.foldl_nil, map_set _ (fun m => updateLanes m lanes), ih]

/-! ### Cases -/

/-- The hypotheses are met: an agent is added between two maps. -/
example : (∀ id m, Call.swapLogic id m ∉ [Call.setMap ["T0"], .addAgent "car" (some ["T0", "M01"]), .setMap ["T0", "T1"]]) ∧
    AddedAt [.setMap ["T0"], .addAgent "car" (some ["T0", "M01"]), .setMap ["T0", "T1"]] "car" (some ["T0", "M01"]) [.setMap ["T0"]] [.setMap ["T0", "T1"]] ∧
    run [.setMap ["T0"], .addAgent "car" (some ["T0", "M01"]), .setMap ["T0", "T1"]] = .ok ⟨[("car", some ["T0", "M01", "T1"])], ["T0", "T1"]⟩ := by
  refine ⟨by simp, ⟨rfl, by simp⟩, by decide +kernel⟩

example : run [.addAgent "car" (some ["T0"]), .setMap ["T1"], .addAgent "truck" none] = .ok ⟨[("car", some ["T0", "T1"]), ("truck", none)], ["T1"]⟩ := by decide +kernel

/-- **C100** is violated by `swap_dl`: the new decision logic does not know the lanes of the map. -/
theorem C100_swap_violated : run [.setMap ["T0", "T1"], .addAgent "car" (some []), .swapLogic "car" (some [])] = .ok ⟨[("car", some [])], ["T0", "T1"]⟩ := by decide +kernel

/-- **C100** is violated when the map is replaced: the lanes of the old map stay. -/
theorem C100_replaced_violated : run [.setMap ["T0"], .addAgent "car" (some []), .setMap ["T1"]] = .ok ⟨[("car", some ["T0", "T1"])], ["T1"]⟩ := by decide +kernel

end Verif.Props
