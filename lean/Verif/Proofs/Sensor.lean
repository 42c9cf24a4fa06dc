import Verif.Spec.Sensor
import Verif.Proofs.Basic

/-!
Helper lemmas on the sensor.
-/

set_option autoImplicit false

namespace Verif.Sns

variable {C D V K : Type}

theorem key_inj {t a b : String} (h : t ++ "." ++ a = t ++ "." ++ b) : a = b := by
  have := congrArg String.toList h
  simp only [String.toList_append] at this
  exact String.toList_inj.1 (List.append_cancel_left this)

theorem dot_split : ∀ (l m : List Char) (x y : List Char), '.' ∉ l → '.' ∉ m → l ++ '.' :: x = m ++ '.' :: y → l = m
  | [], [], _, _, _, _, _ => rfl
  | [], c :: m, x, y, _, hm, h => by
    simp only [List.nil_append, List.cons_append, List.cons.injEq] at h
    exact absurd (h.1 ▸ List.mem_cons_self) hm
  | c :: l, [], x, y, hl, _, h => by
    simp only [List.nil_append, List.cons_append, List.cons.injEq] at h
    exact absurd (h.1 ▸ List.mem_cons_self) hl
  | c :: l, e :: m, x, y, hl, hm, h => by
    simp only [List.cons_append, List.cons.injEq] at h
    rw [h.1, dot_split l m x y (fun q => hl (List.mem_cons_of_mem _ q)) (fun q => hm (List.mem_cons_of_mem _ q)) h.2]

theorem key_thing {t s a b : String} (ht : '.' ∉ t.toList) (hs : '.' ∉ s.toList) (h : t ++ "." ++ a = s ++ "." ++ b) : t = s := by
  have := congrArg String.toList h
  simp only [String.toList_append] at this
  have hd : ".".toList = ['.'] := by decide
  rw [hd, List.append_assoc, List.append_assoc] at this
  exact String.toList_inj.1 (dot_split _ _ _ _ ht hs this)

def setsP (d : Dict String (Val V)) (thing : String) (ps : List (String × V)) : Dict String (Val V) :=
  ps.foldl (fun d kv => Dict.set d (thing ++ "." ++ kv.1) (.one kv.2)) d

theorem setsP_spec (thing : String) : ∀ (ps : List (String × V)) (d : Dict String (Val V)), (ps.map Prod.fst).Nodup →
    (∀ k v, (k, v) ∈ ps → Dict.get? (setsP d thing ps) (thing ++ "." ++ k) = some (.one v)) ∧
    (∀ key, (∀ k ∈ ps.map Prod.fst, key ≠ thing ++ "." ++ k) → Dict.get? (setsP d thing ps) key = Dict.get? d key)
  | [], d, _ => ⟨fun _ _ h => (List.not_mem_nil h).elim, fun _ _ => rfl⟩
  | p :: ps, d, hn => by
    rw [List.map_cons, List.nodup_cons] at hn
    obtain ⟨h1, h2⟩ := setsP_spec thing ps (Dict.set d (thing ++ "." ++ p.1) (.one p.2)) hn.2
    refine ⟨?_, ?_⟩
    · intro k v hkv
      rcases List.mem_cons.1 hkv with rfl | hkv
      · show Dict.get? (setsP (Dict.set d (thing ++ "." ++ k) (.one v)) thing ps) (thing ++ "." ++ k) = some (.one v)
        rw [h2 _ (fun k' hk' he => hn.1 (by rw [show (k, v).1 = k' from key_inj he]; exact hk')), Dict.get?_set_self]
      · exact h1 k v hkv
    · intro key hk
      show Dict.get? (setsP (Dict.set d (thing ++ "." ++ p.1) (.one p.2)) thing ps) key = _
      rw [h2 key (fun k' hk' => hk k' (List.mem_cons_of_mem _ hk')), Dict.get?_set_ne]
      exact fun he => hk p.1 List.mem_cons_self he.symm

/-- The list kept under a key. -/
def getMany (d : Dict String (Val V)) (key : String) : List V :=
  match Dict.get? d key with
  | some (.many l) => l
  | _ => []

/-- A key holds nothing or a list. -/
def Free (d : Dict String (Val V)) (key : String) : Prop := ∀ v, Dict.get? d key ≠ some (.one v)

theorem addOne_spec (thing : String) (d : Dict String (Val V)) (kv : String × V) (hf : Free d (thing ++ "." ++ kv.1)) :
    addOne thing d kv = .ok (Dict.set d (thing ++ "." ++ kv.1) (.many (getMany d (thing ++ "." ++ kv.1) ++ [kv.2]))) := by
  unfold addOne getMany
  cases h : Dict.get? d (thing ++ "." ++ kv.1) with
  | none => rfl
  | some x =>
    cases x with
    | one v => exact absurd h (hf v)
    | many l => rfl

theorem addsP_spec (thing : String) : ∀ (ps : List (String × V)) (d : Dict String (Val V)), (ps.map Prod.fst).Nodup →
    (∀ k ∈ ps.map Prod.fst, Free d (thing ++ "." ++ k)) →
    ∃ d', ps.foldlM (addOne thing) d = .ok d' ∧
      (∀ k v, (k, v) ∈ ps → Dict.get? d' (thing ++ "." ++ k) = some (.many (getMany d (thing ++ "." ++ k) ++ [v]))) ∧
      (∀ key, (∀ k ∈ ps.map Prod.fst, key ≠ thing ++ "." ++ k) → Dict.get? d' key = Dict.get? d key)
  | [], d, _, _ => ⟨d, rfl, fun _ _ h => (List.not_mem_nil h).elim, fun _ _ => rfl⟩
  | p :: ps, d, hn, hf => by
    rw [List.map_cons, List.nodup_cons] at hn
    have hne : ∀ k ∈ ps.map Prod.fst, thing ++ "." ++ p.1 ≠ thing ++ "." ++ k := fun k' hk' he => hn.1 (key_inj he ▸ hk')
    obtain ⟨d', h0, h1, h2⟩ := addsP_spec thing ps (Dict.set d (thing ++ "." ++ p.1) (.many (getMany d (thing ++ "." ++ p.1) ++ [p.2]))) hn.2
      (fun k hk v => by
        rw [Dict.get?_set_ne _ _ _ _ (hne k hk)]
        exact hf k (List.mem_cons_of_mem _ hk) v)
    refine ⟨d', (foldlM_cons_ok _ _ _ _ _).2 ⟨_, addOne_spec thing d p (hf p.1 List.mem_cons_self), h0⟩, ?_, ?_⟩
    · intro k v hkv
      rcases List.mem_cons.1 hkv with rfl | hkv
      · rw [h2 _ hne, Dict.get?_set_self]
      · rw [h1 k v hkv]
        have := hne k (List.mem_map.2 ⟨_, hkv, rfl⟩)
        simp only [getMany, Dict.get?_set_ne _ _ _ _ this]
    · intro key hk
      rw [h2 key (fun k' hk' => hk k' (List.mem_cons_of_mem _ hk')), Dict.get?_set_ne]
      exact fun he => hk p.1 List.mem_cons_self he.symm

theorem shows_ego {d : Dict String (Val V)} {arg : String} {ns : List String} {os : List (List (String × V))} (h : Shows d [] arg ns os)
    (ps : List (String × V)) (hn : (ps.map Prod.fst).Nodup) (hdot : '.' ∉ arg.toList) (harg : arg ≠ "ego") :
    Shows (setsP d "ego" ps) ps arg ns os := by
  obtain ⟨h1, h2⟩ := setsP_spec "ego" ps d hn
  have hne : ∀ k k', arg ++ "." ++ k ≠ "ego" ++ "." ++ k' := fun k k' he => harg (key_thing hdot (by decide) he)
  refine ⟨h1, ?_, ?_⟩
  · intro ho k hk
    obtain ⟨l, hl, hf⟩ := h.lists ho k hk
    exact ⟨l, by rw [h2 _ (fun k' _ => hne k k')]; exact hl, hf⟩
  · intro key x hx
    by_cases hk : ∃ k ∈ ps.map Prod.fst, key = "ego" ++ "." ++ k
    · obtain ⟨k, hk, he⟩ := hk
      obtain ⟨⟨k', v⟩, hm, rfl⟩ := List.mem_map.1 hk
      exact Or.inl ⟨k', v, hm, he⟩
    · rw [h2 key (fun k hk' he => hk ⟨k, hk', he⟩)] at hx
      rcases h.only key x hx with ⟨_, _, hm, _⟩ | hr
      · exact (List.not_mem_nil hm).elim
      · exact Or.inr hr

theorem forall₂_snoc {A B : Type} {R : A → B → Prop} : ∀ {l : List A} {m : List B} {a : A} {b : B}, List.Forall₂ R l m → R a b →
    List.Forall₂ R (l ++ [a]) (m ++ [b])
  | _, _, _, _, .nil, h => .cons h .nil
  | _, _, _, _, .cons h0 hf, h => .cons h0 (forall₂_snoc hf h)

theorem shows_other {d : Dict String (Val V)} {own : List (String × V)} {arg : String} {ns : List String} {os : List (List (String × V))}
    (h : Shows d own arg ns os) (ps : List (String × V)) (hps : ps.map Prod.fst = ns) (hn : ns.Nodup) (hdot : '.' ∉ arg.toList) (harg : arg ≠ "ego") :
    ∃ d', ps.foldlM (addOne arg) d = .ok d' ∧ Shows d' own arg ns (os ++ [ps]) := by
  have hne : ∀ k k', "ego" ++ "." ++ k' ≠ arg ++ "." ++ k := fun k k' he => harg (key_thing hdot (by decide) he.symm)
  have hcase : ∀ k ∈ ns, (os = [] ∧ Dict.get? d (arg ++ "." ++ k) = none) ∨
      ∃ l, Dict.get? d (arg ++ "." ++ k) = some (.many l) ∧ List.Forall₂ (fun ps v => (k, v) ∈ ps) os l := by
    intro k hk
    by_cases ho : os = []
    · refine Or.inl ⟨ho, ?_⟩
      cases hg : Dict.get? d (arg ++ "." ++ k) with
      | none => rfl
      | some x =>
        rcases h.only _ x hg with ⟨k', v, _, he⟩ | ⟨ho', _⟩
        · exact absurd he.symm (hne k k')
        · exact absurd ho ho'
    · exact Or.inr (h.lists ho k hk)
  obtain ⟨d', h0, h1, h2⟩ := addsP_spec arg ps d (hps ▸ hn) (fun k hk v hg => by
    rw [hps] at hk
    rcases hcase k hk with ⟨_, hc⟩ | ⟨l, hc, _⟩ <;> rw [hc] at hg <;> cases hg)
  refine ⟨d', h0, ?_, ?_, ?_⟩
  · intro k v hkv
    rw [h2 _ (fun k' _ => hne k' k)]
    exact h.ego k v hkv
  · intro _ k hk
    have hk' := hk
    rw [← hps] at hk'
    obtain ⟨⟨k', v⟩, hm, rfl⟩ := List.mem_map.1 hk'
    dsimp only at hk ⊢
    refine ⟨_, h1 k' v hm, forall₂_snoc ?_ hm⟩
    rcases hcase k' hk with ⟨ho, hc⟩ | ⟨l, hc, hf⟩
    · simp only [getMany, hc, ho]
      exact .nil
    · simp only [getMany, hc]
      exact hf
  · intro key x hx
    by_cases hk : ∃ k ∈ ps.map Prod.fst, key = arg ++ "." ++ k
    · rw [hps] at hk
      exact Or.inr ⟨by simp, hk⟩
    · rw [h2 key (fun k hk' he => hk ⟨k, hk', he⟩)] at hx
      rcases h.only key x hx with hl | ⟨_, hr⟩
      · exact Or.inl hl
      · exact Or.inr ⟨by simp, hr⟩

theorem keys_zip {A : Type} : ∀ (ks : List String) (vs : List A), vs.length = ks.length → (ks.zip vs).map Prod.fst = ks
  | [], _, _ => by simp
  | k :: ks, [], h => by simp at h
  | k :: ks, v :: vs, h => by
    simp only [List.length_cons, Nat.add_right_cancel_iff] at h
    simp [keys_zip ks vs h]

theorem keys_cont {df : Def} {v : AgentState C D} (h : Fits df v) : (contPairs df v).map Prod.fst = df.cont := keys_zip _ _ h.cont

theorem keys_disc {df : Def} {v : AgentState C D} (h : Fits df v) : (discPairs df v).map Prod.fst = df.disc ++ df.static := by
  simp only [discPairs, List.map_append, keys_zip _ _ h.mode, keys_zip _ _ h.static]

theorem setStates_eq (st : Dict String (Val C) × Dict String (Val D)) (thing : String) (v : AgentState C D) (df : Def) :
    setStates st thing v df = (setsP st.1 thing (contPairs df v), setsP st.2 thing (discPairs df v)) := by
  simp only [setStates, sets, setsP, contPairs, discPairs, List.foldl_append]

theorem addStates_ok {st : Dict String (Val C) × Dict String (Val D)} {thing : String} {v : AgentState C D} {df : Def} {c : Dict String (Val C)}
    {d : Dict String (Val D)} (hc : (contPairs df v).foldlM (addOne thing) st.1 = .ok c) (hd : (discPairs df v).foldlM (addOne thing) st.2 = .ok d) :
    addStates st thing v df = .ok (c, d) := by
  simp only [discPairs, List.foldlM_append] at hd
  obtain ⟨d1, hd1, hd2⟩ := (bind_ok_iff _ _ _).1 hd
  exact (bind_ok_iff _ _ _).2 ⟨c, hc, (bind_ok_iff _ _ _).2 ⟨d1, hd1, (map_ok_iff _ _ _).2 ⟨d, hd2, rfl⟩⟩⟩

theorem others_loop {ego : String} {args : List Arg} {defs : Dict String Def} {a : Arg} {t : String} {df : Def} (ha : otherArg args = some a) (ht : a.typ = some t)
    (hdf : Dict.get? defs t = some df) (hnc : df.cont.Nodup) (hnd : (df.disc ++ df.static).Nodup) (hdot : '.' ∉ a.name.toList) (harg : a.name ≠ "ego")
    (oc : List (String × C)) (od : List (String × D)) : ∀ (sd : List (String × AgentState C D)) (st : Dict String (Val C) × Dict String (Val D))
      (cs : List (List (String × C))) (ds : List (List (String × D))),
      (∀ e ∈ sd, e.1 ≠ ego ∧ Fits df e.2) → Shows st.1 oc a.name df.cont cs → Shows st.2 od a.name (df.disc ++ df.static) ds →
      ∃ st', sd.foldlM (senseStep ego args defs) st = .ok st' ∧ Shows st'.1 oc a.name df.cont (cs ++ sd.map (fun e => contPairs df e.2)) ∧
        Shows st'.2 od a.name (df.disc ++ df.static) (ds ++ sd.map (fun e => discPairs df e.2))
  | [], st, cs, ds, _, hc, hd => ⟨st, rfl, by simpa using hc, by simpa using hd⟩
  | e :: sd, st, cs, ds, hs, hc, hd => by
    obtain ⟨hne, hfit⟩ := hs e List.mem_cons_self
    obtain ⟨c', hc0, hc1⟩ := shows_other hc _ (keys_cont hfit) hnc hdot harg
    obtain ⟨d', hd0, hd1⟩ := shows_other hd _ (keys_disc hfit) hnd hdot harg
    obtain ⟨st', h0, h1, h2⟩ := others_loop ha ht hdf hnc hnd hdot harg oc od sd (c', d') _ _ (fun x hx => hs x (List.mem_cons_of_mem _ hx)) hc1 hd1
    refine ⟨st', (foldlM_cons_ok _ _ _ _ _).2 ⟨(c', d'), ?_, h0⟩, ?_, ?_⟩
    · simp only [senseStep, if_neg hne, senseOther, ha, ht, hdf]
      exact addStates_ok hc0 hd0
    · simpa using h1
    · simpa using h2

end Verif.Sns
