import Verif.Proofs.PackEnv
import Verif.Props.Sensor

/-!
C84: what the controllers are given in `simulate`.
-/

set_option autoImplicit false

namespace Verif.Props
open Verif.Sns

variable {C D : Type}

/-- **C84**, in part: `args` are the arguments of the controller of agent `ego`, with the flags that tell whether they are lists. The first argument `a` that is neither
`ego` nor a map is a list of agents of type `df`, and all other agents are of this type. Then guards, resets and asserts are evaluated with: `ego`, an object with the
variables of the agent itself; `a`, a list with one object for each of the other agents, with its variables; the map for arguments with `map` in their name; and the
empty list for further list arguments.

Missing: an argument that is no list (`C84_single_violated`), agents of several types (`C84_mixed_violated`). -/
theorem C84_view_partial (ego : String) (args : List (Arg × Bool)) (defs : Dict String Def) (sd : Dict String (AgentState C D)) (se : AgentState C D)
    (te : String) (de : Def) (a : Arg) (t : String) (df : Def)
    (hids : (sd.map Prod.fst).Nodup) (hego : (ego, se) ∈ sd)
    (hte : egoType (args.map Prod.fst) = some te) (hde : Dict.get? defs te = some de) (hfe : Fits de se) (hen : de.names.Nodup)
    (ha : otherArg (args.map Prod.fst) = some a) (ht : a.typ = some t) (hdf : Dict.get? defs t = some df) (hn : df.names.Nodup) (hne : df.names ≠ [])
    (hdots : '.' ∉ a.name.toList ∧ ∀ k ∈ de.names ++ df.names, '.' ∉ k.toList)
    (hfit : ∀ e ∈ sd, e.1 ≠ ego → Fits df e.2)
    (hargs : (args.map (fun a => a.1.name)).Nodup) (hlist : (a, true) ∈ args) :
    ∃ env own objs, view ego args defs sd = .ok env ∧
      Dict.get? env "ego" = some (.obj own) ∧ (∀ k x, Dict.get? own k = some x ↔ ∃ v, x = .one v ∧ HasValue de se k v) ∧
      Dict.get? env a.name = some (.list objs) ∧ List.Forall₂ (fun (e : String × AgentState C D) o => IsAgent df e.2 o) (sd.filter (fun e => decide (e.1 ≠ ego))) objs ∧
      (∀ b ∈ args, "map".toList <:+: b.1.name.toList → Dict.get? env b.1.name = some .map) ∧
      ∀ b ∈ args, b.1 ≠ a → ¬ "map".toList <:+: b.1.name.toList → b.1.name ≠ "ego" → b.2 = true → Dict.get? env b.1.name = some (.list []) := by
  obtain ⟨hdota, hdotk⟩ := hdots
  unfold Def.names at hen hn
  have hen1 := List.nodup_append.1 hen
  have hn1 := List.nodup_append.1 hn
  obtain ⟨cont, disc, hs, hc, hd⟩ := C48_sense_partial ego (args.map Prod.fst) defs sd se te de a t df hids hego hte hde hfe hen1.1 hen1.2.1 ha ht hdf hdota
    hn1.1 hn1.2.1 hfit
  obtain ⟨nc, nd⟩ := nodup_sense hs
  have haego : a.name ≠ "ego" := by
    have := List.find?_some ha
    simp only [Bool.and_eq_true, decide_eq_true_eq] at this
    exact this.1
  have hamap : ¬ "map".toList <:+: a.name.toList := by
    have := List.find?_some ha
    simp only [Bool.and_eq_true, decide_eq_true_eq, Bool.not_eq_true', decide_eq_false_iff_not] at this
    exact this.2
  generalize hoth : sd.filter (fun e => decide (e.1 ≠ ego)) = others at hc hd
  have hfo : ∀ e ∈ others, Fits df e.2 := by
    intro e he
    rw [← hoth, List.mem_filter] at he
    exact hfit e he.1 (by simpa using he.2)
  -- names of the keys
  have kown : ∀ k v, (k, v) ∈ contPairs de se → k ∈ de.cont := by
    intro k v h; rw [← keys_cont hfe]; exact List.mem_map_of_mem h
  have kownd : ∀ k v, (k, v) ∈ discPairs de se → k ∈ de.disc ++ de.static := by
    intro k v h; rw [← keys_disc hfe]; exact List.mem_map_of_mem h
  set es : List (String × Val (C ⊕ D)) := cont.map (fun (e : String × Val C) => (e.1, e.2.map Sum.inl)) ++ disc.map (fun (e : String × Val D) => (e.1, e.2.map Sum.inr)) with hes
  have hkeys : es.map Prod.fst = cont.map Prod.fst ++ disc.map Prod.fst := by
    rw [hes, List.map_append, List.map_map, List.map_map]; rfl
  have hck : ∀ key ∈ cont.map Prod.fst, (∃ k ∈ de.cont, key = "ego" ++ "." ++ k) ∨ (∃ k ∈ df.cont, key = a.name ++ "." ++ k) := by
    intro key hk
    obtain ⟨x, hx⟩ := Option.isSome_iff_exists.1 ((Dict.isSome_get?_iff cont key).2 hk)
    rcases hc.only _ _ hx with ⟨k, v, h1, h2⟩ | ⟨_, k, h1, h2⟩
    · exact .inl ⟨k, kown k v h1, h2⟩
    · exact .inr ⟨k, h1, h2⟩
  have hdk : ∀ key ∈ disc.map Prod.fst, (∃ k ∈ de.disc ++ de.static, key = "ego" ++ "." ++ k) ∨ (∃ k ∈ df.disc ++ df.static, key = a.name ++ "." ++ k) := by
    intro key hk
    obtain ⟨x, hx⟩ := Option.isSome_iff_exists.1 ((Dict.isSome_get?_iff disc key).2 hk)
    rcases hd.only _ _ hx with ⟨k, v, h1, h2⟩ | ⟨_, k, h1, h2⟩
    · exact .inl ⟨k, kownd k v h1, h2⟩
    · exact .inr ⟨k, h1, h2⟩
  have hdot_e : ∀ k ∈ de.cont ++ (de.disc ++ de.static), '.' ∉ k.toList := fun k hk => hdotk k (List.mem_append_left _ hk)
  have hdot_f : ∀ k ∈ df.cont ++ (df.disc ++ df.static), '.' ∉ k.toList := fun k hk => hdotk k (List.mem_append_right _ hk)
  have hegodot : '.' ∉ "ego".toList := by decide
  have hgood : ∀ e ∈ es, GoodKey e.1 := by
    intro e he
    have hk : e.1 ∈ es.map Prod.fst := List.mem_map_of_mem he
    rw [hkeys, List.mem_append] at hk
    rcases hk with hk | hk
    · rcases hck _ hk with ⟨k, h1, h2⟩ | ⟨k, h1, h2⟩
      · exact ⟨_, k, h2, hegodot, hdot_e k (List.mem_append_left _ h1)⟩
      · exact ⟨_, k, h2, hdota, hdot_f k (List.mem_append_left _ h1)⟩
    · rcases hdk _ hk with ⟨k, h1, h2⟩ | ⟨k, h1, h2⟩
      · exact ⟨_, k, h2, hegodot, hdot_e k (List.mem_append_right _ h1)⟩
      · exact ⟨_, k, h2, hdota, hdot_f k (List.mem_append_right _ h1)⟩
  have hnd : (es.map Prod.fst).Nodup := by
    rw [hkeys]
    refine List.nodup_append.2 ⟨nc, nd, ?_⟩
    rintro x h1 y h2 rfl
    rcases hck x h1 with ⟨k, k1, rfl⟩ | ⟨k, k1, rfl⟩ <;> rcases hdk _ h2 with ⟨k', k2, e⟩ | ⟨k', k2, e⟩
    · obtain rfl := key_inj e
      exact hen1.2.2 k k1 k k2 rfl
    · exact haego (key_thing hegodot hdota e).symm
    · exact haego (key_thing hdota hegodot e)
    · obtain rfl := key_inj e
      exact hn1.2.2 k k1 k k2 rfl
  obtain ⟨R, hR1, hR2, hR3⟩ := pack_fold es [] hgood hnd ⟨by simp, by simp, by simp⟩
  have hlook : ∀ t k, '.' ∉ t.toList → '.' ∉ k.toList → look R t k =
      ((Dict.get? cont (t ++ "." ++ k)).map (Val.map Sum.inl)).or ((Dict.get? disc (t ++ "." ++ k)).map (Val.map Sum.inr)) := by
    intro t k h1 h2
    rw [hR3 t k h1 h2]
    have : look ([] : Dict String (Dict String (Val (C ⊕ D)))) t k = none := rfl
    rw [this, Option.or_none]
    have happ : ∀ (l1 l2 : Dict String (Val (C ⊕ D))) (key : String), Dict.get? (l1 ++ l2) key = (Dict.get? l1 key).or (Dict.get? l2 key) := by
      intro l1 l2 key
      induction l1 with
      | nil => simp
      | cons x l1 ih => rw [List.cons_append, Dict.get?_cons, Dict.get?_cons]; split <;> simp [ih]
    rw [hes, happ]
    congr 1
    · exact Dict.get?_mapVals cont (Val.map Sum.inl) _
    · exact Dict.get?_mapVals disc (Val.map Sum.inr) _
  -- `packed` has entries for `ego` and for the argument only
  have hentry : ∀ t m k x, Dict.get? R t = some m → Dict.get? m k = some x → '.' ∉ t.toList ∧ '.' ∉ k.toList ∧ look R t k = some x := by
    intro t m k x h1 h2
    have h3 := hR2.dots t m h1
    exact ⟨h3.1, h3.2 _ (Dict.mem_of_get? h2), by simp [look, h1, h2]⟩
  have hfirst : ∀ t m, Dict.get? R t = some m → ∃ k x, Dict.get? m k = some x := by
    intro t m h1
    have h2 := hR2.ne t m h1
    obtain ⟨e, he⟩ := List.exists_mem_of_ne_nil _ h2
    exact ⟨e.1, e.2, Dict.get?_of_mem (hR2.nodup t m h1) he⟩
  have hwhich : ∀ t k x, '.' ∉ t.toList → '.' ∉ k.toList → look R t k = some x → t = "ego" ∨ t = a.name := by
    intro t k x h1 h2 h3
    rw [hlook t k h1 h2, Option.or_eq_some_iff] at h3
    rcases h3 with h3 | ⟨_, h3⟩
    · obtain ⟨y, hy, _⟩ := Option.map_eq_some_iff.1 h3
      rcases hck _ ((Dict.isSome_get?_iff _ _).1 (Option.isSome_iff_exists.2 ⟨y, hy⟩)) with ⟨k', _, e⟩ | ⟨k', _, e⟩
      · exact .inl (key_thing h1 hegodot e)
      · exact .inr (key_thing h1 hdota e)
    · obtain ⟨y, hy, _⟩ := Option.map_eq_some_iff.1 h3
      rcases hdk _ ((Dict.isSome_get?_iff _ _).1 (Option.isSome_iff_exists.2 ⟨y, hy⟩)) with ⟨k', _, e⟩ | ⟨k', _, e⟩
      · exact .inl (key_thing h1 hegodot e)
      · exact .inr (key_thing h1 hdota e)
  have honly : ∀ t, t ≠ "ego" → t ≠ a.name → Dict.get? R t = none := by
    intro t h1 h2
    cases hg : Dict.get? R t with
    | none => rfl
    | some m =>
      obtain ⟨k, x, hk⟩ := hfirst t m hg
      obtain ⟨d1, d2, d3⟩ := hentry t m k x hg hk
      rcases hwhich t k x d1 d2 d3 with h | h
      · exact absurd h h1
      · exact absurd h h2
  -- the object for the agent itself
  have hown : ∀ k x, Dict.get? ((Dict.get? R "ego").getD []) k = some x ↔ ∃ v, x = .one v ∧ HasValue de se k v := by
    intro k x
    have hl : Dict.get? ((Dict.get? R "ego").getD []) k = look R "ego" k := by
      unfold look; cases Dict.get? R "ego" <;> rfl
    rw [hl]
    constructor
    · intro h
      have hk : '.' ∉ k.toList := by
        unfold look at h
        obtain ⟨m, h1, h2⟩ := Option.bind_eq_some_iff.1 h
        exact (hentry _ m k x h1 h2).2.1
      rw [hlook _ k hegodot hk, Option.or_eq_some_iff] at h
      rcases h with h | ⟨_, h⟩
      · obtain ⟨y, hy, rfl⟩ := Option.map_eq_some_iff.1 h
        obtain ⟨v, rfl, hm⟩ := (shows_own hc haego hdota k y).1 hy
        exact ⟨.inl v, rfl, mem_contPairs hm⟩
      · obtain ⟨y, hy, rfl⟩ := Option.map_eq_some_iff.1 h
        obtain ⟨v, rfl, hm⟩ := (shows_own hd haego hdota k y).1 hy
        exact ⟨.inr v, rfl, mem_discPairs hm⟩
    · rintro ⟨v, rfl, hv⟩
      rcases hasValue_cases hv with ⟨y, rfl, hm⟩ | ⟨y, rfl, hm⟩
      · rw [hlook _ k hegodot (hdot_e k (List.mem_append_left _ (kown k y hm))), hc.ego k y hm]
        rfl
      · have hkd := kownd k y hm
        rw [hlook _ k hegodot (hdot_e k (List.mem_append_right _ hkd)), hd.ego k y hm]
        have : Dict.get? cont ("ego" ++ "." ++ k) = none := by
          cases hg : Dict.get? cont ("ego" ++ "." ++ k) with
          | none => rfl
          | some z =>
            obtain ⟨v, rfl, hm'⟩ := (shows_own hc haego hdota k z).1 hg
            exact absurd rfl (hen1.2.2 k (kown k v hm') k hkd)
        rw [this]
        rfl
  -- the objects for the others
  have hothers : ∃ objs, argVal R (a, true) = some (.ok (.list objs)) ∧ List.Forall₂ (fun (e : String × AgentState C D) o => IsAgent df e.2 o) others objs := by
    have hav : argVal R (a, true) = match Dict.get? R a.name with
        | some m => some ((objects m).map .list)
        | none => some (.ok (.list [])) := by
      simp only [argVal, if_neg hamap, if_pos haego, if_true]
      cases Dict.get? R a.name <;> rfl
    -- a value of the argument is a list, with the values of the agents
    have hval : ∀ k x, '.' ∉ k.toList → look R a.name k = some x → others ≠ [] ∧ ∃ l, x = .many l ∧
        List.Forall₂ (fun (e : String × AgentState C D) v => HasValue df e.2 k v) others l := by
      intro k x hk h
      rw [hlook _ k hdota hk, Option.or_eq_some_iff] at h
      rcases h with h | ⟨_, h⟩
      · obtain ⟨y, hy, rfl⟩ := Option.map_eq_some_iff.1 h
        obtain ⟨ho, _, l, rfl, hf⟩ := shows_arg hc haego hdota hy
        refine ⟨fun e => ho (by rw [e]; rfl), l.map Sum.inl, rfl, ?_⟩
        rw [List.forall₂_map_left_iff] at hf
        rw [List.forall₂_map_right_iff]
        exact hf.imp (fun e v h => mem_contPairs h)
      · obtain ⟨y, hy, rfl⟩ := Option.map_eq_some_iff.1 h
        obtain ⟨ho, _, l, rfl, hf⟩ := shows_arg hd haego hdota hy
        refine ⟨fun e => ho (by rw [e]; rfl), l.map Sum.inr, rfl, ?_⟩
        rw [List.forall₂_map_left_iff] at hf
        rw [List.forall₂_map_right_iff]
        exact hf.imp (fun e v h => mem_discPairs h)
    cases hg : Dict.get? R a.name with
    | none =>
      refine ⟨[], by rw [hav, hg], ?_⟩
      by_contra hcon
      have ho : others ≠ [] := fun e => hcon (e ▸ .nil)
      obtain ⟨k, hk⟩ := List.exists_mem_of_ne_nil _ hne
      have hkd := hdotk k (List.mem_append_right _ hk)
      have hsome : ∃ x, look R a.name k = some x := by
        rw [hlook _ k hdota hkd]
        rcases List.mem_append.1 hk with hk | hk
        · obtain ⟨l, h1, _⟩ := hc.lists (by simpa using ho) k hk
          rw [h1]; exact ⟨_, rfl⟩
        · obtain ⟨l, h1, _⟩ := hd.lists (by simpa using ho) k hk
          rw [h1]
          cases (Dict.get? cont (a.name ++ "." ++ k)) <;> exact ⟨_, rfl⟩
      obtain ⟨x, hx⟩ := hsome
      rw [look, hg] at hx
      cases hx
    | some m =>
      obtain ⟨objs, h1, h2, h3⟩ := objects_spec (n := others.length) (hR2.ne _ _ hg) (hR2.nodup _ _ hg) (by
        intro e he
        have hk := Dict.get?_of_mem (hR2.nodup _ _ hg) he
        obtain ⟨_, d2, d3⟩ := hentry _ m _ _ hg hk
        obtain ⟨_, l, h4, h5⟩ := hval _ _ d2 d3
        exact ⟨l, h4, h5.length_eq.symm⟩)
      refine ⟨objs, by rw [hav, hg]; simp only [h1]; rfl, List.forall₂_iff_get.2 ⟨h2.symm, ?_⟩⟩
      intro i hi ho k x
      rw [h3 i (objs.get ⟨i, ho⟩) (List.getElem?_eq_getElem ho) k x]
      constructor
      · rintro ⟨l, h4, h5⟩
        obtain ⟨_, d2, d3⟩ := hentry _ m _ _ hg h4
        obtain ⟨_, l', h6, h7⟩ := hval _ _ d2 d3
        cases h6
        obtain ⟨hil, rfl⟩ := List.getElem?_eq_some_iff.1 h5
        exact (List.forall₂_iff_get.1 h7).2 i hi hil
      · intro hv
        have ho' : others ≠ [] := by
          intro e; rw [e] at hi; exact absurd hi (by simp)
        have hmem : others.get ⟨i, hi⟩ ∈ others := List.get_mem _ _
        have hkn : k ∈ df.cont ++ (df.disc ++ df.static) ∧ ∃ l, look R a.name k = some (.many l) := by
          rcases hasValue_cases hv with ⟨y, rfl, hm⟩ | ⟨y, rfl, hm⟩
          · have hk : k ∈ df.cont := by rw [← keys_cont (hfo _ hmem)]; exact List.mem_map_of_mem hm
            obtain ⟨l, h4, _⟩ := hc.lists (by simpa using ho') k hk
            refine ⟨List.mem_append_left _ hk, l.map Sum.inl, ?_⟩
            rw [hlook _ k hdota (hdot_f k (List.mem_append_left _ hk)), h4]; rfl
          · have hk : k ∈ df.disc ++ df.static := by rw [← keys_disc (hfo _ hmem)]; exact List.mem_map_of_mem hm
            obtain ⟨l, h4, _⟩ := hd.lists (by simpa using ho') k hk
            refine ⟨List.mem_append_right _ hk, l.map Sum.inr, ?_⟩
            rw [hlook _ k hdota (hdot_f k (List.mem_append_right _ hk)), h4]
            have : Dict.get? cont (a.name ++ "." ++ k) = none := by
              cases hg' : Dict.get? cont (a.name ++ "." ++ k) with
              | none => rfl
              | some z => exact absurd rfl (hn1.2.2 k (shows_arg hc haego hdota hg').2.1 k hk)
            rw [this]; rfl
        obtain ⟨hkn, l, hl⟩ := hkn
        obtain ⟨_, l', h6, h7⟩ := hval k _ (hdot_f k hkn) hl
        cases h6
        have hil : i < l.length := h7.length_eq ▸ hi
        have hgm : Dict.get? m k = some (.many l) := by rw [look, hg] at hl; exact hl
        refine ⟨l, hgm, ?_⟩
        rw [List.getElem?_eq_getElem hil]
        have hv' := (List.forall₂_iff_get.1 h7).2 i hi hil
        have huniq : ∀ v v', HasValue df (others.get ⟨i, hi⟩).2 k v → HasValue df (others.get ⟨i, hi⟩).2 k v' → v = v' := by
          have f := hfo _ hmem
          have k1 : ∀ v, (k, v) ∈ contPairs df (others.get ⟨i, hi⟩).2 → k ∈ df.cont := by
            intro v h; rw [← keys_cont f]; exact List.mem_map_of_mem h
          have k2 : ∀ v, (k, v) ∈ discPairs df (others.get ⟨i, hi⟩).2 → k ∈ df.disc ++ df.static := by
            intro v h; rw [← keys_disc f]; exact List.mem_map_of_mem h
          intro v v' h h'
          rcases hasValue_cases h with ⟨y, rfl, hm⟩ | ⟨y, rfl, hm⟩ <;> rcases hasValue_cases h' with ⟨y', rfl, hm'⟩ | ⟨y', rfl, hm'⟩
          · rw [pair_unique (by rw [keys_cont f]; exact hn1.1) hm hm']
          · exact absurd rfl (hn1.2.2 k (k1 _ hm) k (k2 _ hm'))
          · exact absurd rfl (hn1.2.2 k (k1 _ hm') k (k2 _ hm))
          · rw [pair_unique (by rw [keys_disc f]; exact hn1.2.1) hm hm']
        exact congrArg some (huniq _ _ hv' hv)
  obtain ⟨objs, ho1, ho2⟩ := hothers
  have hsame : ∀ b ∈ args, b.1.name = a.name → b = (a, true) := by
    intro b hb e
    exact List.inj_on_of_nodup_map hargs hb hlist e
  have hnone : ∀ b ∈ args, b.1 ≠ a → b.1.name ≠ "ego" → Dict.get? R b.1.name = none := by
    intro b hb h1 h2
    refine honly _ h2 (fun e => h1 ?_)
    rw [hsame b hb e]
  obtain ⟨env, e1, e2, e3⟩ := pack_args R args [("ego", .obj ((Dict.get? R "ego").getD []))] hargs (by
    intro b hb r hr
    unfold argVal at hr
    split at hr
    · exact ⟨_, (Option.some.inj hr).symm⟩
    · rename_i hm
      split at hr
      · rename_i he
        by_cases hba : b.1 = a
        · have := hsame b hb (by rw [hba])
          subst this
          have := ho1
          unfold argVal at this
          rw [if_neg hm, if_pos he] at this
          rw [this] at hr
          exact ⟨_, (Option.some.inj hr).symm⟩
        · rw [hnone b hb hba he] at hr
          cases hb2 : b.2
          · simp [hb2] at hr
          · simp only [hb2, if_true] at hr
            exact ⟨_, (Option.some.inj hr).symm⟩
      · cases hr)
  refine ⟨env, _, objs, ?_, ?_, hown, e2 (a, true) hlist _ ho1, ho2, ?_, ?_⟩
  · rw [view, hs]
    show (packAll cont disc).bind _ = _
    rw [packAll, ← hes, hR1]
    exact e1
  · rw [e3 "ego"]
    · rfl
    · intro b hb e
      unfold argVal
      rw [if_neg (by rw [e]; decide), if_neg (by rw [e]; simp)]
  · intro b hb hm
    exact e2 b hb _ (by unfold argVal; rw [if_pos hm])
  · intro b hb hba hm he h2
    exact e2 b hb _ (by unfold argVal; rw [if_neg hm, if_pos he, hnone b hb hba he]; simp [h2])

namespace SnsEx

def argsList : List (Arg × Bool) := [(ego, false), (others, true), (trackMap, false)]

/-- The hypotheses of `C84_view_partial` hold for three cars, seen by the second. -/
example : ∃ env own objs, view "b" argsList defs sd = .ok env ∧
      Dict.get? env "ego" = some (.obj own) ∧ (∀ k x, Dict.get? own k = some x ↔ ∃ v, x = .one v ∧ HasValue ⟨["x", "v"], ["mode"], ["kind"]⟩ (car 3 4 "L") k v) ∧
      Dict.get? env "others" = some (.list objs) ∧
      List.Forall₂ (fun (e : String × AgentState Int String) o => IsAgent ⟨["x", "v"], ["mode"], ["kind"]⟩ e.2 o) (sd.filter (fun e => decide (e.1 ≠ "b"))) objs ∧
      (∀ b ∈ argsList, "map".toList <:+: b.1.name.toList → Dict.get? env b.1.name = some .map) ∧
      ∀ b ∈ argsList, b.1 ≠ others → ¬ "map".toList <:+: b.1.name.toList → b.1.name ≠ "ego" → b.2 = true → Dict.get? env b.1.name = some (.list []) :=
  C84_view_partial "b" argsList defs sd (car 3 4 "L") "State" ⟨["x", "v"], ["mode"], ["kind"]⟩ others "State" ⟨["x", "v"], ["mode"], ["kind"]⟩
    (by decide) (by simp [sd]) (by decide) (by rfl) ⟨rfl, rfl, rfl⟩ (by decide) (by decide +kernel) rfl (by rfl) (by decide) (by decide) (by decide)
    (by
      intro e he _
      simp only [sd, List.mem_cons, List.not_mem_nil, or_false] at he
      rcases he with rfl | rfl | rfl <;> exact ⟨rfl, rfl, rfl⟩)
    (by decide) (by simp [argsList])

example : view "b" argsList defs sd = .ok
    [("ego", .obj [("x", .one (.inl 3)), ("v", .one (.inl 4)), ("mode", .one (.inr "L")), ("kind", .one (.inr "car"))]),
     ("others", .list [[("x", .inl 1), ("v", .inl 2), ("mode", .inr "N"), ("kind", .inr "car")], [("x", .inl 5), ("v", .inl 6), ("mode", .inr "R"), ("kind", .inr "car")]]),
     ("track_map", .map)] := by decide +kernel

end SnsEx

/-- **C84 fails** for an argument that is one agent and no list (`def decisionLogic(ego: State, other: State)`): its variables are the one-element lists that
`add_states` made, not the values. A guard like `other.x - ego.x < 5` raises in `simulate`. -/
theorem C84_single_violated :
    view "b" [(SnsEx.ego, false), (⟨"other", some "State"⟩, false)] SnsEx.defs [("a", SnsEx.car 1 2 "N"), ("b", SnsEx.car 3 4 "L")] = .ok
      [("ego", .obj [("x", .one (.inl 3)), ("v", .one (.inl 4)), ("mode", .one (.inr "L")), ("kind", .one (.inr "car"))]),
       ("other", .obj [("x", .many [.inl 1]), ("v", .many [.inl 2]), ("mode", .many [.inr "N"]), ("kind", .many [.inr "car"])])] := by decide +kernel

/-- **C84 fails** for agents with state vectors of different lengths: for agents `a` with `x = 1` and no `v`, and `c` with `x = 5, v = 6`, the list has the one
object `x = 1, v = 6`, which is no agent. (Its `kind` is the one of `c`, too.) -/
theorem C84_mixed_violated :
    (view "b" [(SnsEx.ego, false), (SnsEx.others, true)] SnsEx.defs SnsEx.sdMixed).map (fun env => Dict.get? env "others") = .ok
      (some (.list [[("x", .inl 1), ("v", .inl 6), ("mode", .inr "N"), ("kind", .inr "car")]])) := by decide +kernel

end Verif.Props
