import Verif.Spec.PackEnv
import Verif.Proofs.Sensor

/-!
Helper lemmas on `pack_env`.
-/

set_option autoImplicit false

namespace Verif.Sns

variable {C D X V : Type}

theorem splitDot_none : ∀ (l : List Char), '.' ∉ l → splitDot l = [l]
  | [], _ => rfl
  | c :: cs, h => by
    have hc : c ≠ '.' := fun e => h (e ▸ List.mem_cons_self)
    rw [splitDot, if_neg hc, splitDot_none cs (fun q => h (List.mem_cons_of_mem _ q))]

theorem splitDot_dot : ∀ (l m : List Char), '.' ∉ l → splitDot (l ++ '.' :: m) = l :: splitDot m
  | [], m, _ => by simp [splitDot]
  | c :: cs, m, h => by
    have hc : c ≠ '.' := fun e => h (e ▸ List.mem_cons_self)
    rw [List.cons_append, splitDot, if_neg hc, splitDot_dot cs m (fun q => h (List.mem_cons_of_mem _ q))]

/-- A key without further dots is split at its dot. -/
theorem split_key {t k : String} (ht : '.' ∉ t.toList) (hk : '.' ∉ k.toList) : splitDot (t ++ "." ++ k).toList = [t.toList, k.toList] := by
  have hd : ".".toList = ['.'] := by decide
  rw [String.toList_append, String.toList_append, hd, List.append_assoc]
  show splitDot (t.toList ++ '.' :: k.toList) = _
  rw [splitDot_dot _ _ ht, splitDot_none _ hk]

/-- `packed[t][k]` -/
def look (P : Dict String (Dict String (Val X))) (t k : String) : Option (Val X) := (Dict.get? P t).bind (fun m => Dict.get? m k)

/-- Keys as the sensor makes them. -/
def GoodKey (key : String) : Prop := ∃ t k, key = t ++ "." ++ k ∧ '.' ∉ t.toList ∧ '.' ∉ k.toList

theorem packOne_key (P : Dict String (Dict String (Val X))) {t k : String} (ht : '.' ∉ t.toList) (hk : '.' ∉ k.toList) (v : Val X) :
    packOne P (t ++ "." ++ k, v) = .ok (Dict.set P t (Dict.set ((Dict.get? P t).getD []) k v)) := by
  simp only [packOne, split_key ht hk, String.ofList_toList]

/-- All entries of `packed` are made of entries with good keys. -/
structure Packed (P : Dict String (Dict String (Val X))) : Prop where
  ne : ∀ t m, Dict.get? P t = some m → m ≠ []
  nodup : ∀ t m, Dict.get? P t = some m → (m.map Prod.fst).Nodup
  dots : ∀ t m, Dict.get? P t = some m → '.' ∉ t.toList ∧ ∀ e ∈ m, '.' ∉ e.1.toList

theorem packed_set {P : Dict String (Dict String (Val X))} (h : Packed P) {t k : String} (ht : '.' ∉ t.toList) (hk : '.' ∉ k.toList) (v : Val X) :
    Packed (Dict.set P t (Dict.set ((Dict.get? P t).getD []) k v)) := by
  have hcase : ∀ t' m, Dict.get? (Dict.set P t (Dict.set ((Dict.get? P t).getD []) k v)) t' = some m →
      (t' = t ∧ m = Dict.set ((Dict.get? P t).getD []) k v) ∨ Dict.get? P t' = some m := by
    intro t' m hm
    rw [Dict.get?_set] at hm
    split at hm
    · rename_i e; exact .inl ⟨e.symm, (Option.some.inj hm).symm⟩
    · exact .inr hm
  refine ⟨?_, ?_, ?_⟩
  · intro t' m hm
    rcases hcase t' m hm with ⟨rfl, rfl⟩ | hm
    · exact Dict.set_ne_nil _ _ _
    · exact h.ne _ _ hm
  · intro t' m hm
    rcases hcase t' m hm with ⟨rfl, rfl⟩ | hm
    · apply Dict.nodup_set
      cases e : Dict.get? P t' with
      | none => simp
      | some m' => exact h.nodup _ _ e
    · exact h.nodup _ _ hm
  · intro t' m hm
    rcases hcase t' m hm with ⟨rfl, rfl⟩ | hm
    · refine ⟨ht, fun e he => ?_⟩
      have hke : e.1 ∈ (Dict.set ((Dict.get? P t').getD []) k v).map Prod.fst := List.mem_map_of_mem he
      rw [Dict.keys_set] at hke
      have hold : e.1 ∈ ((Dict.get? P t').getD []).map Prod.fst → '.' ∉ e.1.toList := by
        intro hmem
        cases e' : Dict.get? P t' with
        | none => rw [e'] at hmem; simp at hmem
        | some m' =>
          rw [e', Option.getD_some] at hmem
          obtain ⟨x, hx, hx'⟩ := List.mem_map.1 hmem
          rw [← hx']
          exact (h.dots _ _ e').2 x hx
      split at hke
      · exact hold hke
      · rcases List.mem_append.1 hke with hke | hke
        · exact hold hke
        · rw [List.mem_singleton] at hke
          rw [hke]; exact hk
    · exact h.dots _ _ hm

theorem look_set (P : Dict String (Dict String (Val X))) (t k : String) (v : Val X) (t' k' : String) :
    look (Dict.set P t (Dict.set ((Dict.get? P t).getD []) k v)) t' k' = if t = t' ∧ k = k' then some v else look P t' k' := by
  unfold look
  rw [Dict.get?_set]
  by_cases e : t = t'
  · subst e
    rw [if_pos rfl, Option.bind_some, Dict.get?_set]
    by_cases e' : k = k'
    · rw [if_pos e', if_pos ⟨rfl, e'⟩]
    · rw [if_neg e', if_neg (fun h => e' h.2)]
      cases Dict.get? P t <;> rfl
  · rw [if_neg e, if_neg (fun h => e h.1)]

/-- The loop of `pack_env`: every entry is found where its key says. -/
theorem pack_fold : ∀ (es : List (String × Val X)) (P : Dict String (Dict String (Val X))), (∀ e ∈ es, GoodKey e.1) → (es.map Prod.fst).Nodup → Packed P →
    ∃ R, es.foldlM packOne P = .ok R ∧ Packed R ∧
      ∀ t k, '.' ∉ t.toList → '.' ∉ k.toList → look R t k = (Dict.get? (es : Dict String (Val X)) (t ++ "." ++ k)).or (look P t k)
  | [], P, _, _, hP => ⟨P, rfl, hP, fun t k _ _ => by simp⟩
  | (key, v) :: es, P, hg, hn, hP => by
    obtain ⟨t, k, rfl, ht, hk⟩ := hg (key, v) List.mem_cons_self
    have hP' := packed_set hP ht hk v
    rw [List.map_cons, List.nodup_cons] at hn
    obtain ⟨R, h1, h2, h3⟩ := pack_fold es _ (fun e he => hg e (List.mem_cons_of_mem _ he)) hn.2 hP'
    refine ⟨R, ?_, h2, ?_⟩
    · rw [List.foldlM_cons, packOne_key P ht hk]
      exact h1
    · intro t' k' ht' hk'
      rw [h3 t' k' ht' hk', look_set, Dict.get?_cons]
      by_cases e : t = t' ∧ k = k'
      · obtain ⟨rfl, rfl⟩ := e
        rw [if_pos ⟨rfl, rfl⟩, if_pos rfl, (Dict.get?_none_iff _ _).2 hn.1]
        rfl
      · rw [if_neg e, if_neg]
        intro h
        have e1 := key_thing ht ht' h
        subst e1
        exact e ⟨rfl, key_inj h⟩

/-- The dictionaries of the sensor have different keys. -/
theorem nodup_sets (thing : String) (attrs : List String) (vals : List V) (d : Dict String (Val V)) (h : (d.map Prod.fst).Nodup) :
    ((sets d thing attrs vals).map Prod.fst).Nodup := by
  unfold sets
  induction attrs.zip vals generalizing d with
  | nil => exact h
  | cons x l ih => exact ih _ (Dict.nodup_set h _ _)

theorem nodup_adds {thing : String} {attrs : List String} {vals : List V} {d d' : Dict String (Val V)} (h : (d.map Prod.fst).Nodup)
    (h' : adds d thing attrs vals = .ok d') : (d'.map Prod.fst).Nodup := by
  unfold adds at h'
  refine foldlM_inv (P := fun d : Dict String (Val V) => (d.map Prod.fst).Nodup) h' h (fun d x d1 _ hd hx => ?_)
  unfold addOne at hx
  split at hx
  · cases hx; exact Dict.nodup_set hd _ _
  · cases hx; exact Dict.nodup_set hd _ _
  · cases hx

theorem nodup_sense {ego : String} {args : List Arg} {defs : Dict String Def} {sd : Dict String (AgentState C D)} {cont : Dict String (Val C)}
    {disc : Dict String (Val D)} {n : Int} (h : sense ego args defs sd = .ok ((cont, disc), n)) : (cont.map Prod.fst).Nodup ∧ (disc.map Prod.fst).Nodup := by
  unfold sense at h
  split at h
  · cases h
  · obtain ⟨st, h1, h2⟩ := (map_ok_iff _ _ _).1 h
    have hst : (st.1.map Prod.fst).Nodup ∧ (st.2.map Prod.fst).Nodup := by
      refine foldlM_inv (P := fun st : Dict String (Val C) × Dict String (Val D) => (st.1.map Prod.fst).Nodup ∧ (st.2.map Prod.fst).Nodup)
        h1 ⟨List.nodup_nil, List.nodup_nil⟩ (fun st x st' _ hs hx => ?_)
      unfold senseStep at hx
      split at hx
      · unfold senseEgo at hx
        split at hx
        · cases hx; exact hs
        · split at hx
          · cases hx
          · cases hx
            exact ⟨nodup_sets _ _ _ _ hs.1, nodup_sets _ _ _ _ (nodup_sets _ _ _ _ hs.2)⟩
      · unfold senseOther at hx
        split at hx
        · cases hx; exact hs
        · split at hx
          · cases hx; exact hs
          · split at hx
            · cases hx
            · unfold addStates at hx
              obtain ⟨c, h3, h4⟩ := (bind_ok_iff _ _ _).1 hx
              obtain ⟨d, h5, h6⟩ := (bind_ok_iff _ _ _).1 h4
              obtain ⟨d', h7, rfl⟩ := (map_ok_iff _ _ _).1 h6
              exact ⟨nodup_adds hs.1 h3, nodup_adds (nodup_adds hs.2 h5) h7⟩
    cases h2
    exact hst

/-- The objects of a list argument: the `i`-th has the `i`-th value of each list. -/
theorem objects_spec {m : Dict String (Val X)} {n : Nat} (hne : m ≠ []) (hn : (m.map Prod.fst).Nodup)
    (hm : ∀ e ∈ m, ∃ l, e.2 = Val.many l ∧ l.length = n) :
    ∃ os, objects m = .ok os ∧ os.length = n ∧ ∀ (i : Nat) (o : Dict String X), os[i]? = some o → ∀ k x, Dict.get? o k = some x ↔
      ∃ l, Dict.get? m k = some (Val.many l) ∧ l[i]? = some x := by
  obtain ⟨ml, rfl, hl⟩ : ∃ ml : List (String × List X), m = ml.map (fun e => (e.1, Val.many e.2)) ∧ ∀ e ∈ ml, e.2.length = n := by
    clear hne hn
    induction m with
    | nil => exact ⟨[], rfl, by simp⟩
    | cons e m ih =>
      obtain ⟨ml, rfl, h1⟩ := ih (fun e he => hm e (List.mem_cons_of_mem _ he))
      obtain ⟨l, h2, h3⟩ := hm e List.mem_cons_self
      refine ⟨(e.1, l) :: ml, ?_, ?_⟩
      · obtain ⟨a, b⟩ := e
        simp only at h2
        rw [h2]; rfl
      · intro e' he'
        rcases List.mem_cons.1 he' with rfl | he'
        · exact h3
        · exact h1 e' he'
  have hmap : (ml.map (fun e => (e.1, Val.many e.2))).mapM (fun (e : String × Val X) => asList e.2) = .ok (ml.map Prod.snd) := by
    clear hne hn hm hl
    induction ml with
    | nil => rfl
    | cons e ml ih => rw [List.map_cons, List.mapM_cons, ih]; rfl
  have hzip : zipStar (ml.map Prod.snd) = (List.range n).map fun i => (ml.map Prod.snd).filterMap (fun m => m[i]?) := by
    match ml, hne, hl with
    | e :: ml, _, hl =>
      have hfold : ∀ (ls : List (String × List X)), (∀ e ∈ ls, e.2.length = n) → (ls.map Prod.snd).foldl (fun n m => min n m.length) n = n := by
        intro ls
        induction ls with
        | nil => intro _; rfl
        | cons x ls ih =>
          intro h
          rw [List.map_cons, List.foldl_cons, h x List.mem_cons_self, min_self]
          exact ih (fun e he => h e (List.mem_cons_of_mem _ he))
      simp only [List.map_cons, zipStar]
      rw [hl e List.mem_cons_self, hfold ml (fun e he => hl e (List.mem_cons_of_mem _ he))]
  refine ⟨_, by rw [objects, hmap]; rfl, ?_, ?_⟩
  · show ((zipStar _).map _).length = n
    rw [hzip]; simp
  · intro i o ho k x
    change ((zipStar _).map _)[i]? = some o at ho
    rw [hzip, List.map_map, List.getElem?_map, Option.map_eq_some_iff] at ho
    obtain ⟨j, hj, rfl⟩ := ho
    obtain ⟨hjn, hij⟩ := List.getElem?_eq_some_iff.1 hj
    rw [List.getElem_range] at hij
    subst hij
    rw [List.length_range] at hjn
    simp only [Function.comp]
    clear hj hmap hzip hne hm
    rw [List.map_map]
    induction ml with
    | nil => simp
    | cons e ml ih =>
      have hlen := hl e List.mem_cons_self
      obtain ⟨a, l⟩ := e
      simp only at hlen
      have hil : i < l.length := by omega
      rw [List.map_cons, List.map_cons, List.nodup_cons] at hn
      have := ih (fun e he => hl e (List.mem_cons_of_mem _ he)) hn.2
      simp only [List.map_cons, Function.comp, List.filterMap_cons, List.getElem?_eq_getElem hil, List.zip_cons_cons, Dict.get?_cons] at this ⊢
      by_cases e : a = k
      · rw [if_pos e, if_pos e]
        constructor
        · intro h
          cases h
          exact ⟨l, rfl, List.getElem?_eq_getElem hil⟩
        · rintro ⟨l', h, h'⟩
          cases h
          rw [List.getElem?_eq_getElem hil] at h'
          exact h'
      · rw [if_neg e, if_neg e]
        exact this

/-- What an argument is bound to. -/
def argVal (packed : Dict String (Dict String (Val X))) (a : Arg × Bool) : Option (Except String (EnvVal X)) :=
  if "map".toList <:+: a.1.name.toList then some (.ok .map)
  else if a.1.name ≠ "ego" then
    match Dict.get? packed a.1.name with
    | some m => if a.2 then some ((objects m).map .list) else some (.ok (.obj m))
    | none => if a.2 then some (.ok (.list [])) else none
  else none

theorem packArg_eq (packed : Dict String (Dict String (Val X))) (env : Dict String (EnvVal X)) (a : Arg × Bool) :
    packArg packed env a = match argVal packed a with
      | some r => r.map (fun v => Dict.set env a.1.name v)
      | none => .ok env := by
  unfold packArg argVal
  by_cases h1 : "map".toList <:+: a.1.name.toList
  · rw [if_pos h1, if_pos h1]; rfl
  · rw [if_neg h1, if_neg h1]
    by_cases h2 : a.1.name ≠ "ego"
    · rw [if_pos h2, if_pos h2]
      cases Dict.get? packed a.1.name with
      | none => cases a.2 <;> rfl
      | some m =>
        cases a.2
        · rfl
        · show Except.map _ (objects m) = Except.map _ (Except.map _ (objects m))
          cases objects m <;> rfl
    · rw [if_neg h2, if_neg h2]

/-- The loop over the arguments. -/
theorem pack_args (packed : Dict String (Dict String (Val X))) : ∀ (args : List (Arg × Bool)) (env : Dict String (EnvVal X)),
    (args.map (fun a => a.1.name)).Nodup → (∀ a ∈ args, ∀ r, argVal packed a = some r → ∃ v, r = .ok v) →
    ∃ env', args.foldlM (packArg packed) env = .ok env' ∧ (∀ a ∈ args, ∀ v, argVal packed a = some (.ok v) → Dict.get? env' a.1.name = some v) ∧
      ∀ n, (∀ a ∈ args, a.1.name = n → argVal packed a = none) → Dict.get? env' n = Dict.get? env n
  | [], env, _, _ => ⟨env, rfl, by simp, fun _ _ => rfl⟩
  | a :: args, env, hn, hok => by
    rw [List.map_cons, List.nodup_cons] at hn
    obtain ⟨env1, he, hset⟩ : ∃ env1, packArg packed env a = .ok env1 ∧
        ((∃ v, argVal packed a = some (.ok v) ∧ env1 = Dict.set env a.1.name v) ∨ (argVal packed a = none ∧ env1 = env)) := by
      rw [packArg_eq]
      cases hv : argVal packed a with
      | none => exact ⟨env, rfl, .inr ⟨rfl, rfl⟩⟩
      | some r =>
        obtain ⟨v, rfl⟩ := hok a List.mem_cons_self r hv
        exact ⟨_, rfl, .inl ⟨v, rfl, rfl⟩⟩
    obtain ⟨env', h1, h2, h3⟩ := pack_args packed args env1 hn.2 (fun x hx => hok x (List.mem_cons_of_mem _ hx))
    refine ⟨env', by rw [List.foldlM_cons, he]; exact h1, ?_, ?_⟩
    · intro x hx v hv
      rcases List.mem_cons.1 hx with rfl | hx
      · rw [h3]
        · rcases hset with ⟨v', e1, rfl⟩ | ⟨e1, _⟩
          · rw [e1] at hv; cases hv
            exact Dict.get?_set_self _ _ _
          · rw [e1] at hv; cases hv
        · intro y hy e
          exact absurd (List.mem_map.2 ⟨y, hy, e⟩) hn.1
      · exact h2 x hx v hv
    · intro n hnone
      rw [h3 n (fun x hx => hnone x (List.mem_cons_of_mem _ hx))]
      rcases hset with ⟨v', e1, rfl⟩ | ⟨_, rfl⟩
      · rw [Dict.get?_set_ne]
        intro e
        rw [hnone a List.mem_cons_self e] at e1
        cases e1
      · rfl

/-! ### What `Shows` says about single keys -/

theorem shows_own {d : Dict String (Val V)} {own : List (String × V)} {arg : String} {names : List String} {others : List (List (String × V))}
    (h : Shows d own arg names others) (harg : arg ≠ "ego") (hdot : '.' ∉ arg.toList) (k : String) (x : Val V) :
    Dict.get? d ("ego" ++ "." ++ k) = some x ↔ ∃ v, x = .one v ∧ (k, v) ∈ own := by
  constructor
  · intro hg
    rcases h.only _ _ hg with ⟨k', v, hm, e⟩ | ⟨_, k', _, e⟩
    · obtain rfl := key_inj e
      rw [h.ego _ _ hm] at hg
      exact ⟨v, (Option.some.inj hg).symm, hm⟩
    · exact absurd (key_thing (by decide) hdot e).symm harg
  · rintro ⟨v, rfl, hm⟩
    exact h.ego _ _ hm

theorem shows_arg {d : Dict String (Val V)} {own : List (String × V)} {arg : String} {names : List String} {others : List (List (String × V))}
    (h : Shows d own arg names others) (harg : arg ≠ "ego") (hdot : '.' ∉ arg.toList) {k : String} {x : Val V} (hg : Dict.get? d (arg ++ "." ++ k) = some x) :
    others ≠ [] ∧ k ∈ names ∧ ∃ l, x = .many l ∧ List.Forall₂ (fun ps v => (k, v) ∈ ps) others l := by
  rcases h.only _ _ hg with ⟨k', v, _, e⟩ | ⟨ho, k', hk, e⟩
  · exact absurd (key_thing hdot (by decide) e) harg
  · obtain rfl := key_inj e
    obtain ⟨l, h1, h2⟩ := h.lists ho k hk
    rw [h1] at hg
    exact ⟨ho, hk, l, (Option.some.inj hg).symm, h2⟩

theorem mem_contPairs {df : Def} {v : AgentState C D} {k : String} {x : C} (h : (k, x) ∈ contPairs df v) : HasValue df v k (.inl x) := by
  obtain ⟨i, hi⟩ := List.mem_iff_getElem?.1 h
  obtain ⟨h1, h2⟩ := List.getElem?_zip_eq_some.1 hi
  exact .cont h1 h2

theorem mem_discPairs {df : Def} {v : AgentState C D} {k : String} {x : D} (h : (k, x) ∈ discPairs df v) : HasValue df v k (.inr x) := by
  rcases List.mem_append.1 h with h | h
  · obtain ⟨i, hi⟩ := List.mem_iff_getElem?.1 h
    obtain ⟨h1, h2⟩ := List.getElem?_zip_eq_some.1 hi
    exact .disc h1 h2
  · obtain ⟨i, hi⟩ := List.mem_iff_getElem?.1 h
    obtain ⟨h1, h2⟩ := List.getElem?_zip_eq_some.1 hi
    exact .static h1 h2

theorem hasValue_cases {df : Def} {v : AgentState C D} {k : String} {x : C ⊕ D} (h : HasValue df v k x) :
    (∃ y, x = .inl y ∧ (k, y) ∈ contPairs df v) ∨ ∃ y, x = .inr y ∧ (k, y) ∈ discPairs df v := by
  cases h with
  | cont h1 h2 => exact .inl ⟨_, rfl, List.mem_iff_getElem?.2 ⟨_, List.getElem?_zip_eq_some.2 ⟨h1, h2⟩⟩⟩
  | disc h1 h2 => exact .inr ⟨_, rfl, List.mem_append.2 (.inl (List.mem_iff_getElem?.2 ⟨_, List.getElem?_zip_eq_some.2 ⟨h1, h2⟩⟩))⟩
  | static h1 h2 => exact .inr ⟨_, rfl, List.mem_append.2 (.inr (List.mem_iff_getElem?.2 ⟨_, List.getElem?_zip_eq_some.2 ⟨h1, h2⟩⟩))⟩

theorem pair_unique {ps : List (String × V)} (hn : (ps.map Prod.fst).Nodup) {k : String} {x y : V} (h : (k, x) ∈ ps) (h' : (k, y) ∈ ps) : x = y := by
  have h1 := Dict.get?_of_mem (d := ps) hn h
  have h2 := Dict.get?_of_mem (d := ps) hn h'
  exact Option.some.inj (h1.symm.trans h2)

end Verif.Sns
