import Verif.Spec.Assembled
import Verif.Props.Sensor
import Verif.Proofs.Guard4
import Verif.Proofs.StarGuard2

/-! What an agent senses, in terms of the states of the system. -/

set_option autoImplicit false
set_option linter.unusedSectionVars false

namespace Verif.Proofs.Asm

open Verif.Asm Verif.Asm.Spec Verif.Grd Verif.Grd.Spec Verif.Sns

/-! ### Keys -/

theorem splitKey_some {s n a : String} (h : splitKey s = some (n, a)) : s = n ++ "." ++ a ∧ '.' ∉ n.toList := by
  unfold splitKey at h
  split at h
  · cases h
  · rename_i c l hl
    simp only [Option.some.injEq, Prod.mk.injEq] at h
    obtain ⟨rfl, rfl⟩ := h
    have hc : c = '.' := by
      have := List.head?_dropWhile_not (fun c => decide (c ≠ '.')) s.toList
      rw [hl] at this
      simpa using this
    have hs := List.takeWhile_append_dropWhile (p := fun c => decide (c ≠ '.')) (l := s.toList)
    refine ⟨?_, ?_⟩
    · apply String.toList_inj.1
      simp only [String.toList_append, String.toList_ofList]
      rw [hl, hc] at hs
      rw [List.append_assoc]
      exact hs.symm
    · rw [String.toList_ofList]
      intro hm
      have := List.all_takeWhile (p := fun c => decide (c ≠ '.')) (l := s.toList)
      have := List.all_eq_true.1 this '.' hm
      simp at this

theorem splitKey_key {n a : String} (h : '.' ∉ n.toList) : splitKey (n ++ "." ++ a) = some (n, a) := by
  have h1 : ∀ l : List Char, '.' ∉ l → (l ++ '.' :: a.toList).takeWhile (fun c => decide (c ≠ '.')) = l ∧
      (l ++ '.' :: a.toList).dropWhile (fun c => decide (c ≠ '.')) = '.' :: a.toList := by
    intro l
    induction l with
    | nil => intro _; simp
    | cons c l ih =>
      intro hl
      simp only [List.mem_cons, not_or] at hl
      have hc : c ≠ '.' := fun he => hl.1 he.symm
      obtain ⟨i1, i2⟩ := ih hl.2
      refine ⟨?_, ?_⟩
      · rw [List.cons_append, List.takeWhile_cons_of_pos (by simpa using hc), i1]
      · rw [List.cons_append, List.dropWhile_cons_of_pos (by simpa using hc), i2]
  have e : (n ++ "." ++ a).toList = n.toList ++ '.' :: a.toList := by
    simp only [String.toList_append]
    have hd : ".".toList = ['.'] := by decide
    rw [hd, List.append_assoc]; rfl
  unfold splitKey
  rw [e, (h1 _ h).2, (h1 _ h).1]
  simp

/-! ### Dictionaries -/

section
variable {V : Type}

theorem get?_filterMap_some {A B C D : Type} [DecidableEq A] [DecidableEq C] (g : A × B → Option (C × D)) : ∀ (d : Dict A B) (k : C) (v : D),
    Dict.get? (d.filterMap g) k = some v → ∃ e ∈ d, g e = some (k, v)
  | [], k, v, h => by cases h
  | e :: d, k, v, h => by
    rw [List.filterMap_cons] at h
    cases he : g e with
    | none =>
      rw [he] at h
      obtain ⟨e', h1, h2⟩ := get?_filterMap_some g d k v h
      exact ⟨e', List.mem_cons_of_mem _ h1, h2⟩
    | some kv =>
      rw [he] at h
      dsimp only at h
      rw [Dict.get?_cons] at h
      split at h
      · rename_i hk
        cases h
        exact ⟨e, List.mem_cons_self, by rw [he, ← hk]⟩
      · obtain ⟨e', h1, h2⟩ := get?_filterMap_some g d k v h
        exact ⟨e', List.mem_cons_of_mem _ h1, h2⟩

theorem get?_filterMap_of {A B C D : Type} [DecidableEq A] [DecidableEq C] (g : A × B → Option (C × D)) (k : C) (v : D) : ∀ (d : Dict A B),
    (∃ e ∈ d, g e = some (k, v)) → (∀ e ∈ d, ∀ v', g e = some (k, v') → v' = v) → Dict.get? (d.filterMap g) k = some v
  | [], h, _ => by obtain ⟨e, he, _⟩ := h; cases he
  | e :: d, h, hu => by
    rw [List.filterMap_cons]
    have hu' : ∀ e ∈ d, ∀ v', g e = some (k, v') → v' = v := fun e' he' => hu e' (List.mem_cons_of_mem _ he')
    have hrest : (∀ v', g e ≠ some (k, v')) → ∃ e ∈ d, g e = some (k, v) := by
      intro hne
      obtain ⟨e', he', hg⟩ := h
      rcases List.mem_cons.1 he' with rfl | he'
      · exact absurd hg (hne v)
      · exact ⟨e', he', hg⟩
    cases he : g e with
    | none => exact get?_filterMap_of g k v d (hrest (by simp [he])) hu'
    | some kv =>
      obtain ⟨k', v'⟩ := kv
      dsimp only
      rw [Dict.get?_cons]
      split
      · rename_i hk
        subst hk
        rw [hu e List.mem_cons_self v' he]
      · rename_i hk
        refine get?_filterMap_of g k v d (hrest ?_) hu'
        intro v'' hv
        rw [he] at hv
        cases hv
        exact hk rfl

theorem get?_ones {d : Dict String (Sns.Val V)} {k : Key} {v : V} :
    Dict.get? (ones d) k = some v ↔ ∃ n x, k = .attr n x ∧ '.' ∉ n.toList ∧ Dict.get? d (n ++ "." ++ x) = some (.one v) := by
  constructor
  · intro h
    obtain ⟨e, _, he⟩ := get?_filterMap_some _ _ _ _ h
    split at he
    · rename_i w hw
      obtain ⟨⟨n, x⟩, h1, h2⟩ := Option.map_eq_some_iff.1 he
      obtain ⟨h3, h4⟩ := splitKey_some h1
      simp only [Prod.mk.injEq] at h2
      obtain ⟨rfl, rfl⟩ := h2
      exact ⟨n, x, rfl, h4, by rw [← h3]; exact hw⟩
    · cases he
  · rintro ⟨n, x, rfl, hn, h⟩
    refine get?_filterMap_of _ _ _ _ ⟨(n ++ "." ++ x, .one v), Dict.mem_of_get? h, ?_⟩ ?_
    · simp only [h, splitKey_key hn, Option.map_some]
    · intro e _ v' he
      split at he
      · rename_i w hw
        obtain ⟨⟨n', x'⟩, h1, h2⟩ := Option.map_eq_some_iff.1 he
        obtain ⟨h3, h4⟩ := splitKey_some h1
        simp only [Prod.mk.injEq, Key.attr.injEq] at h2
        obtain ⟨⟨rfl, rfl⟩, rfl⟩ := h2
        rw [h3, h] at hw
        cases hw
        rfl
      · cases he

theorem get?_manys {d : Dict String (Sns.Val V)} {l x : String} {vs : List V} (h : Dict.get? (manys d) (l, x) = some vs) :
    '.' ∉ l.toList ∧ Dict.get? d (l ++ "." ++ x) = some (.many vs) := by
  obtain ⟨e, _, he⟩ := get?_filterMap_some _ _ _ _ h
  split at he
  · rename_i w hw
    obtain ⟨⟨n, y⟩, h1, h2⟩ := Option.map_eq_some_iff.1 he
    obtain ⟨h3, h4⟩ := splitKey_some h1
    simp only [Prod.mk.injEq] at h2
    obtain ⟨⟨rfl, rfl⟩, rfl⟩ := h2
    exact ⟨h4, by rw [← h3]; exact hw⟩
  · cases he

theorem shows_ones {d : Dict String (Sns.Val V)} {own : List (String × V)} {arg : String} {names : List String} {os : List (List (String × V))}
    (h : Shows d own arg names os) {k : Key} {v : V} : Dict.get? (ones d) k = some v ↔ ∃ x, k = .attr "ego" x ∧ (x, v) ∈ own := by
  rw [get?_ones]
  constructor
  · rintro ⟨n, x, rfl, hn, hg⟩
    rcases h.only _ _ hg with ⟨x', v', hm, he⟩ | ⟨ho, x', hx', he⟩
    · obtain rfl := key_thing hn (by decide) he
      obtain rfl := key_inj he
      have := h.ego x v' hm
      rw [hg] at this
      cases this
      exact ⟨x, rfl, hm⟩
    · obtain ⟨l, hl, _⟩ := h.lists ho x' hx'
      rw [he, hl] at hg
      cases hg
  · rintro ⟨x, rfl, hm⟩
    exact ⟨"ego", x, rfl, by decide, h.ego x v hm⟩

theorem shows_manys {d : Dict String (Sns.Val V)} {own : List (String × V)} {arg : String} {names : List String} {os : List (List (String × V))}
    (hdot : '.' ∉ arg.toList) (h : Shows d own arg names os) {l x : String} {vs : List V} (hg : Dict.get? (manys d) (l, x) = some vs) :
    l = arg ∧ x ∈ names ∧ List.Forall₂ (fun ps v => (x, v) ∈ ps) os vs := by
  obtain ⟨hl, hg⟩ := get?_manys hg
  rcases h.only _ _ hg with ⟨x', v', hm, he⟩ | ⟨ho, x', hx', he⟩
  · rw [he, h.ego x' v' hm] at hg
    cases hg
  · obtain ⟨l', hl', hf⟩ := h.lists ho x' hx'
    rw [he, hl'] at hg
    cases hg
    obtain rfl := key_thing hl hdot he
    obtain rfl := key_inj he
    exact ⟨rfl, hx', hf⟩

end

/-! ### What is sensed -/

section
variable {K : Type}

/-- The entry of an agent as the sensor reads it. -/
def entry (o : String × Ver.Seg K × List (Grd.Val K) × List (Grd.Val K)) : AgentState (Iv K) (Grd.Val K) := ⟨o.2.1.box.1.zip o.2.1.box.2, o.2.2.1, o.2.2.2⟩

/-- What is sensed are the values of the agent itself and of the others. -/
structure Shown (sg : Sig) (a : String) (sd : Ver.StateDict K (Grd.Val K)) (e : String × Ver.Seg K × List (Grd.Val K) × List (Grd.Val K))
    (s : Sensed K (Iv K)) : Prop where
  cont : ∀ k iv, Dict.get? s.cont k = some iv ↔ ∃ x, k = .attr "ego" x ∧ (x, iv) ∈ contPairs sg.own (entry e)
  disc : ∀ k v, Dict.get? s.disc k = some v ↔ ∃ x, k = .attr "ego" x ∧ (x, v) ∈ discPairs sg.own (entry e)
  contL : ∀ l x ivs, Dict.get? s.contL (l, x) = some ivs → ∃ df, sg.others = some (l, df) ∧
    List.Forall₂ (fun o iv => (x, iv) ∈ contPairs df (entry o)) (sd.filter (fun o => decide (o.1 ≠ a))) ivs
  discL : ∀ l x vs, Dict.get? s.discL (l, x) = some vs → ∃ df, sg.others = some (l, df) ∧
    List.Forall₂ (fun o v => (x, v) ∈ discPairs df (entry o)) (sd.filter (fun o => decide (o.1 ≠ a))) vs
  len : s.len = [("others", sd.length - 1)]

theorem agentStates_eq (sd : Ver.StateDict K (Grd.Val K)) : agentStates sd = sd.map (fun o => (o.1, entry o)) := rfl

theorem filter_agentStates (a : String) (sd : Ver.StateDict K (Grd.Val K)) :
    (agentStates sd).filter (fun o => decide (o.1 ≠ a)) = (sd.filter (fun o => decide (o.1 ≠ a))).map (fun o => (o.1, entry o)) := by
  rw [agentStates_eq, List.filter_map]
  rfl

theorem sense_len {C D : Type} {a : String} {args : List Arg} {defs : Dict String Def} {sd : Dict String (AgentState C D)}
    {r : (Dict String (Sns.Val C) × Dict String (Sns.Val D)) × Int} (h : Sns.sense a args defs sd = .ok r) : r.2.toNat = sd.length - 1 := by
  unfold Sns.sense at h
  split at h
  · cases h
  · obtain ⟨st, _, rfl⟩ := (map_ok_iff _ _ _).1 h
    simp only
    omega

theorem sensed_shown {c : Controller K} {sg : Sig} (hdec : Declares c sg) {a : String} {sd : Ver.StateDict K (Grd.Val K)} (hn : (sd.map Prod.fst).Nodup)
    {e : String × Ver.Seg K × List (Grd.Val K) × List (Grd.Val K)} (he : e ∈ sd) (hea : e.1 = a) (hfit : Fits sg.own (entry e))
    (hfits : ∀ n df, sg.others = some (n, df) → ∀ o ∈ sd, o.1 ≠ a → Fits df (entry o)) :
    ∃ s, sensed c a sd = .ok s ∧ Shown sg a sd e s := by
  have hn' : ((agentStates sd).map Prod.fst).Nodup := by
    rw [agentStates_eq, List.map_map]
    exact hn
  have hmem : (a, entry e) ∈ agentStates sd := by
    rw [agentStates_eq]
    exact List.mem_map.2 ⟨e, he, by rw [hea]⟩
  obtain ⟨t, ht, hd⟩ := hdec.own
  have hnd := hdec.ownNames
  have h1 : sg.own.cont.Nodup := (List.nodup_append.1 hnd).1
  have h2 : (sg.own.disc ++ sg.own.static).Nodup := (List.nodup_append.1 hnd).2.1
  have hlen : (agentStates sd).length = sd.length := by simp [agentStates_eq]
  rcases ho : sg.others with _ | ⟨n, df⟩
  · have h3 := hdec.others
    rw [ho] at h3
    obtain ⟨cont, disc, m, hs, hsc, hsd⟩ := Props.C48_alone a c.args c.defs (agentStates sd) (entry e) t sg.own hn' hmem ht hd hfit h1 h2 h3
    refine ⟨_, by unfold sensed; rw [hs]; rfl, fun k iv => shows_ones hsc, fun k v => shows_ones hsd, ?_, ?_, ?_⟩
    · intro l x ivs hg
      obtain ⟨_, hx, _⟩ := shows_manys (by decide) hsc hg
      exact absurd hx (by simp)
    · intro l x ivs hg
      obtain ⟨_, hx, _⟩ := shows_manys (by decide) hsd hg
      exact absurd hx (by simp)
    · have := sense_len hs
      rw [hlen] at this
      simp only [this]
  · have h3 := hdec.others
    rw [ho] at h3
    obtain ⟨hdot, hnod, t', ha, hd'⟩ := h3
    have h4 : df.cont.Nodup := (List.nodup_append.1 hnod).1
    have h5 : (df.disc ++ df.static).Nodup := (List.nodup_append.1 hnod).2.1
    obtain ⟨cont, disc, hs, hsc, hsd⟩ := Props.C48_sense_partial a c.args c.defs (agentStates sd) (entry e) t sg.own ⟨n, some t'⟩ t' df hn' hmem ht hd hfit h1 h2
      ha rfl hd' hdot h4 h5 (by
        intro o ho' hoa
        rw [agentStates_eq] at ho'
        obtain ⟨o', hm, rfl⟩ := List.mem_map.1 ho'
        exact hfits n df ho o' hm hoa)
    rw [filter_agentStates] at hsc hsd
    refine ⟨_, by unfold sensed; rw [hs]; rfl, fun k iv => shows_ones hsc, fun k v => shows_ones hsd, ?_, ?_, ?_⟩
    · intro l x ivs hg
      obtain ⟨rfl, hx, hf⟩ := shows_manys hdot hsc hg
      refine ⟨df, ho, ?_⟩
      rw [List.map_map, List.forall₂_map_left_iff] at hf
      exact hf
    · intro l x ivs hg
      obtain ⟨rfl, hx, hf⟩ := shows_manys hdot hsd hg
      refine ⟨df, ho, ?_⟩
      rw [List.map_map, List.forall₂_map_left_iff] at hf
      exact hf
    · have := sense_len hs
      rw [hlen] at this
      simp only at this ⊢
      rw [this]

end

end Verif.Proofs.Asm
