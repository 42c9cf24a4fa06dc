import Verif.Spec.ParserWrap
import Verif.Proofs.Piecewise
import Verif.Proofs.Span

/-! Lemmas about Verif/Model/ParserWrap.lean. -/

set_option autoImplicit false
set_option linter.unusedSectionVars false

namespace Verif.Pars

open Verif.Spec Verif.Pw Verif.Ang

variable {K : Type} [Field K] [LinearOrder K]

theorem has_iff (sub s : String) : has sub s = true ↔ Occurs sub s := by simp [has, Occurs]

theorem mentions_iff (sub : String) (e : PE K) : mentions sub e = true ↔ ∃ s ∈ idents e, Occurs sub s := by
  simp [mentions, has_iff]

theorem aliasName_id (s : String) (h : ∀ t ∈ specialTexts, ¬ Occurs t s) : aliasName s = s := by
  have hf : ∀ t ∈ specialTexts, has t s = false := by
    intro t ht
    rw [← Bool.not_eq_true, has_iff]
    exact h t ht
  unfold aliasName
  have : ∀ l : List (String × String), (∀ a ∈ l, a.1 ∈ specialTexts) →
      l.foldl (fun s a => if has a.1 s then String.ofList (Rst.replaceText a.1.toList a.2.toList s.toList.length s.toList) else s) s = s := by
    intro l
    induction l with
    | nil => intro _; rfl
    | cons a l ih =>
      intro hl
      rw [List.foldl_cons, if_neg (by rw [hf a.1 (hl a (by simp))]; decide)]
      exact ih fun b hb => hl b (by simp [hb])
  apply this
  intro a ha
  simp only [aliases, List.mem_cons, List.not_mem_nil, or_false] at ha
  rcases ha with rfl | rfl | rfl | rfl | rfl <;> simp [specialTexts]

theorem mapIds_id (g : String → String) : ∀ (e : PE K), (∀ s ∈ idents e, g s = s) → mapIds g e = e
  | .name x, h => by simp [mapIds, h x (by simp [idents])]
  | .const c, h => rfl
  | .neg a, h => by rw [mapIds, mapIds_id g a h]
  | .pos a, h => by rw [mapIds, mapIds_id g a h]
  | .add a b, h => by
    rw [mapIds, mapIds_id g a fun s hs => h s (by simp [idents, hs]), mapIds_id g b fun s hs => h s (by simp [idents, hs])]
  | .sub a b, h => by
    rw [mapIds, mapIds_id g a fun s hs => h s (by simp [idents, hs]), mapIds_id g b fun s hs => h s (by simp [idents, hs])]
  | .mul a b, h => by
    rw [mapIds, mapIds_id g a fun s hs => h s (by simp [idents, hs]), mapIds_id g b fun s hs => h s (by simp [idents, hs])]
  | .div a b, h => by
    rw [mapIds, mapIds_id g a fun s hs => h s (by simp [idents, hs]), mapIds_id g b fun s hs => h s (by simp [idents, hs])]
  | .call1 f a, h => by
    rw [mapIds, mapIds_id g a fun s hs => h s (by simp [idents, hs]), h f (by simp [idents])]
  | .call2 f a b, h => by
    rw [mapIds, mapIds_id g a fun s hs => h s (by simp [idents, hs]), mapIds_id g b fun s hs => h s (by simp [idents, hs]), h f (by simp [idents])]

theorem mapIds_alias (e : PE K) (h : NoSpecial e) : mapIds aliasName e = e :=
  mapIds_id _ e fun s hs => aliasName_id s (h s hs)

theorem find_angular_none (e : PE K) (h : NoSpecial e) : angularFunctions.find? (fun f => mentions f e) = none := by
  rw [List.find?_eq_none]
  intro f hf hm
  obtain ⟨s, hs, ho⟩ := (mentions_iff _ _).1 hm
  refine h s hs f ?_ ho
  simp only [angularFunctions, List.mem_cons, List.not_mem_nil, or_false] at hf
  rcases hf with rfl | rfl <;> simp [specialTexts]

theorem find_map_none (e : PE K) (h : NoSpecial e) : mapFunctions.find? (fun f => mentions f e) = none := by
  rw [List.find?_eq_none]
  intro f hf hm
  obtain ⟨s, hs, ho⟩ := (mentions_iff _ _).1 hm
  refine h s hs f ?_ ho
  simp only [mapFunctions, List.mem_cons, List.not_mem_nil, or_false] at hf
  rcases hf with rfl | rfl <;> simp [specialTexts]

/-! ### Values -/

/-- Variables of an expression with a value have values. -/
theorem evalE_names (F : Funs K) (env : Env K) : ∀ (e : PE K) (v : K), evalE F env e = some v → ∀ n ∈ names e, ∃ w, Dict.get? env n = some w
  | .name x, v, h, n, hn => by
    simp only [names, List.mem_singleton] at hn
    subst hn
    exact ⟨v, h⟩
  | .const c, v, h, n, hn => by simp [names] at hn
  | .neg a, v, h, n, hn => by
    simp only [evalE, Option.map_eq_some_iff] at h
    obtain ⟨w, hw, _⟩ := h
    exact evalE_names F env a w hw n hn
  | .pos a, v, h, n, hn => evalE_names F env a v h n hn
  | .add a b, v, h, n, hn => by
    simp only [evalE, Option.bind_eq_some_iff, Option.map_eq_some_iff] at h
    obtain ⟨w1, h1, w2, h2, _⟩ := h
    rcases List.mem_append.1 hn with hn | hn
    · exact evalE_names F env a w1 h1 n hn
    · exact evalE_names F env b w2 h2 n hn
  | .sub a b, v, h, n, hn => by
    simp only [evalE, Option.bind_eq_some_iff, Option.map_eq_some_iff] at h
    obtain ⟨w1, h1, w2, h2, _⟩ := h
    rcases List.mem_append.1 hn with hn | hn
    · exact evalE_names F env a w1 h1 n hn
    · exact evalE_names F env b w2 h2 n hn
  | .mul a b, v, h, n, hn => by
    simp only [evalE, Option.bind_eq_some_iff, Option.map_eq_some_iff] at h
    obtain ⟨w1, h1, w2, h2, _⟩ := h
    rcases List.mem_append.1 hn with hn | hn
    · exact evalE_names F env a w1 h1 n hn
    · exact evalE_names F env b w2 h2 n hn
  | .div a b, v, h, n, hn => by
    simp only [evalE, Option.bind_eq_some_iff] at h
    obtain ⟨w1, h1, w2, h2, _⟩ := h
    rcases List.mem_append.1 hn with hn | hn
    · exact evalE_names F env a w1 h1 n hn
    · exact evalE_names F env b w2 h2 n hn
  | .call1 f a, v, h, n, hn => by
    simp only [evalE, Option.bind_eq_some_iff] at h
    obtain ⟨w1, h1, _⟩ := h
    exact evalE_names F env a w1 h1 n hn
  | .call2 f a b, v, h, n, hn => by
    simp only [evalE, Option.bind_eq_some_iff] at h
    obtain ⟨w1, h1, w2, h2, _⟩ := h
    rcases List.mem_append.1 hn with hn | hn
    · exact evalE_names F env a w1 h1 n hn
    · exact evalE_names F env b w2 h2 n hn

/-- The value depends only on the variables that occur. -/
theorem evalE_congr (F : Funs K) (env env' : Env K) : ∀ (e : PE K), (∀ n ∈ names e, Dict.get? env n = Dict.get? env' n) →
    evalE F env e = evalE F env' e
  | .name x, h => h x (by simp [names])
  | .const c, h => rfl
  | .neg a, h => by rw [evalE, evalE, evalE_congr F env env' a h]
  | .pos a, h => evalE_congr F env env' a h
  | .add a b, h => by
    rw [evalE, evalE, evalE_congr F env env' a fun n hn => h n (by simp [names, hn]), evalE_congr F env env' b fun n hn => h n (by simp [names, hn])]
  | .sub a b, h => by
    rw [evalE, evalE, evalE_congr F env env' a fun n hn => h n (by simp [names, hn]), evalE_congr F env env' b fun n hn => h n (by simp [names, hn])]
  | .mul a b, h => by
    rw [evalE, evalE, evalE_congr F env env' a fun n hn => h n (by simp [names, hn]), evalE_congr F env env' b fun n hn => h n (by simp [names, hn])]
  | .div a b, h => by
    rw [evalE, evalE, evalE_congr F env env' a fun n hn => h n (by simp [names, hn]), evalE_congr F env env' b fun n hn => h n (by simp [names, hn])]
  | .call1 f a, h => by
    rw [evalE, evalE, evalE_congr F env env' a h]
  | .call2 f a b, h => by
    rw [evalE, evalE, evalE_congr F env env' a fun n hn => h n (by simp [names, hn]), evalE_congr F env env' b fun n hn => h n (by simp [names, hn])]

/-- An expression with a value without any variables has this value always. -/
theorem evalE_closed (F : Funs K) (env : Env K) (e : PE K) (r : K) (h : evalE F [] e = some r) : evalE F env e = some r := by
  rw [← h]
  refine evalE_congr F env [] e ?_
  intro n hn
  obtain ⟨w, hw⟩ := evalE_names F [] e r h n hn
  cases hw

/-! ### Envelopes -/

theorem minList_le : ∀ (l : List K) (x : K), x ∈ l → minList l ≤ x
  | [], x, h => by simp at h
  | a :: l, x, h => by
    have key : ∀ (l : List K) (a : K), l.foldl min a ≤ a ∧ ∀ x ∈ l, l.foldl min a ≤ x := by
      intro l
      induction l with
      | nil => intro a; simp
      | cons b l ih =>
        intro a
        obtain ⟨h1, h2⟩ := ih (min a b)
        refine ⟨h1.trans (min_le_left _ _), ?_⟩
        intro x hx
        rcases List.mem_cons.1 hx with rfl | hx
        · exact h1.trans (min_le_right _ _)
        · exact h2 x hx
    rcases List.mem_cons.1 h with rfl | h
    · exact (key l _).1
    · exact (key l a).2 x h

theorem le_maxList : ∀ (l : List K) (x : K), x ∈ l → x ≤ maxList l
  | [], x, h => by simp at h
  | a :: l, x, h => by
    have key : ∀ (l : List K) (a : K), a ≤ l.foldl max a ∧ ∀ x ∈ l, x ≤ l.foldl max a := by
      intro l
      induction l with
      | nil => intro a; simp
      | cons b l ih =>
        intro a
        obtain ⟨h1, h2⟩ := ih (max a b)
        refine ⟨(le_max_left _ _).trans h1, ?_⟩
        intro x hx
        rcases List.mem_cons.1 hx with rfl | hx
        · exact (le_max_right _ _).trans h1
        · exact h2 x hx
    rcases List.mem_cons.1 h with rfl | h
    · exact (key l _).1
    · exact (key l a).2 x h

theorem envelope_covers (l r : List (K × K)) (h : envelope l = .ok r) (v : K) (hv : InSome l v) : InSome r v := by
  unfold envelope at h
  split at h
  · cases h
  · injection h with h; subst h
    obtain ⟨iv, hiv, h1, h2⟩ := hv
    exact ⟨_, List.mem_singleton_self _, (minList_le _ _ (List.mem_map_of_mem hiv)).trans h1, h2.trans (le_maxList _ _ (List.mem_map_of_mem hiv))⟩

/-! ### CROWN -/

theorem crownLoop_covers (ctx : Ctx K) (hc : CrownSound ctx) (e : PE K) (args : List String) (hn : args.Nodup) (env : Env K) (v : K)
    (hv : evalE ctx.F env e = some v) (hnames : ∀ n ∈ names e, n ∈ args) : ∀ (combos : List (List (K × K))) (acc r : List (K × K)),
    crownLoop ctx e args combos acc = .ok r → (∀ c ∈ combos, c.length = args.length) →
    ((∃ c ∈ combos, List.Forall₂ (fun a (iv : K × K) => ∃ w, Dict.get? env a = some w ∧ iv.1 ≤ w ∧ w ≤ iv.2) args c) ∨ InSome acc v) → InSome r v
  | [], acc, r, h, _, hh => by
    rcases hh with ⟨c, hc, _⟩ | hh
    · simp at hc
    · exact envelope_covers acc r h v hh
  | c :: rest, acc, r, h, hlen, hh => by
    rw [crownLoop] at h
    have hl := hlen c (by simp)
    split at h
    · next lu hlu =>
      refine crownLoop_covers ctx hc e args hn env v hv hnames rest _ r h (fun c hc => hlen c (by simp [hc])) ?_
      rcases hh with ⟨c', hc', hf⟩ | ⟨iv, hiv, hh⟩
      · rcases List.mem_cons.1 hc' with rfl | hc'
        · right
          refine ⟨lu, by simp, ?_⟩
          rw [zipDict_nodup _ _ hn hl.symm] at hlu
          refine hc e _ lu hlu env v ?_ ?_ hv
          · rw [List.map_fst_zip hl.symm.le]; exact hnames
          · have : ∀ (as : List String) (cs : List (K × K)), List.Forall₂ (fun a (iv : K × K) => ∃ w, Dict.get? env a = some w ∧ iv.1 ≤ w ∧ w ≤ iv.2) as cs →
                ∀ q ∈ as.zip cs, ∃ w, Dict.get? env q.1 = some w ∧ q.2.1 ≤ w ∧ w ≤ q.2.2 := by
              intro as cs hf
              induction hf with
              | nil => simp
              | cons h _ ih =>
                intro q hq
                rcases List.mem_cons.1 hq with rfl | hq
                · exact h
                · exact ih q hq
            exact this _ _ hf
        · exact .inl ⟨c', hc', hf⟩
      · exact .inr ⟨iv, by simp [hiv], hh⟩
    · split at h
      · split at h
        · next r' hr' =>
          injection h with h; subst h
          have := evalE_closed ctx.F env e r' hr'
          rw [hv] at this; injection this with this; subst this
          exact ⟨_, List.mem_singleton_self _, le_refl _, le_refl _⟩
        · cases h
      · cases h

/-- The combination of intervals that contains the values. -/
theorem combo_of_env (env : Env K) (cur : Bounds K) (hin : EnvIn env cur) : ∀ (args : List String) (bl : List (List (K × K))),
    List.Forall₂ (fun a l => Dict.get? cur a = some l) args bl →
    ∃ c ∈ product bl, List.Forall₂ (fun a (iv : K × K) => ∃ w, Dict.get? env a = some w ∧ iv.1 ≤ w ∧ w ≤ iv.2) args c := by
  intro args bl h
  have : ∃ c, List.Forall₂ (fun x l => x ∈ l) c bl ∧ List.Forall₂ (fun a (iv : K × K) => ∃ w, Dict.get? env a = some w ∧ iv.1 ≤ w ∧ w ≤ iv.2) args c := by
    induction h with
    | nil => exact ⟨[], .nil, .nil⟩
    | cons h _ ih =>
      obtain ⟨c, h1, h2⟩ := ih
      obtain ⟨w, hw, iv, hiv, hh⟩ := hin.inside _ (Dict.mem_of_get? h)
      exact ⟨iv :: c, .cons hiv h1, .cons ⟨w, hw, hh⟩ h2⟩
  obtain ⟨c, h1, h2⟩ := this
  exact ⟨c, (mem_product _ _).2 h1, h2⟩

theorem handleCrown_covers (ctx : Ctx K) (hc : CrownSound ctx) (e : PE K) (cur : Bounds K) (r : List (K × K))
    (h : handleCrown ctx e (Dict.keys cur) cur = .ok r) (env : Env K) (v : K) (hin : EnvIn env cur) (hv : evalE ctx.F env e = some v) : InSome r v := by
  obtain ⟨bl, hbl, h⟩ := (bind_ok_iff _ _ _).1 h
  have hbl := lookupAll_ok _ _ _ hbl
  refine crownLoop_covers ctx hc e _ (List.nodup_dedup _) env v hv ?_ _ _ r h ?_ (.inl (combo_of_env env cur hin _ _ hbl))
  · intro n hn
    obtain ⟨w, hw⟩ := evalE_names _ _ _ _ hv n hn
    rw [List.mem_dedup, List.mem_filter]
    exact ⟨hn, decide_eq_true (hin.known n w hw)⟩
  · intro c hcm
    rw [((mem_product _ _).1 hcm).length_eq, hbl.length_eq]

/-! ### Dispatch -/

theorem dispatch_plain [FloorRing K] (ctx : Ctx K) (mapB : String → List (K × K) → Except String (K × K)) (pws : List (PFun K))
    (pwH : PFun K → List String → Bounds K → Except String (List (K × K))) (e : PE K) (cur : Bounds K) (h : Plain pws e) :
    dispatch ctx mapB pws pwH e cur = handleCrown ctx e (Dict.keys cur) cur := by
  have hpw : pws.find? (fun f => mentions f.name e) = none := by
    rw [List.find?_eq_none]
    intro f hf hm
    obtain ⟨s, hs, ho⟩ := (mentions_iff _ _).1 hm
    exact h.2 s hs f hf ho
  unfold dispatch
  simp only [mapIds_alias e h.1, find_angular_none e h.1, hpw, find_map_none e h.1]

theorem plain_sound [FloorRing K] (ctx : Ctx K) (hc : CrownSound ctx) (mapB : String → List (K × K) → Except String (K × K)) (pws : List (PFun K))
    (pwH : PFun K → List String → Bounds K → Except String (List (K × K))) (e : PE K) (h : Plain pws e) :
    ExprSound ctx.F (dispatch ctx mapB pws pwH) e := by
  intro b l hl env v hin hv
  rw [dispatch_plain ctx mapB pws pwH e b h] at hl
  exact handleCrown_covers ctx hc e b l hl env v hin hv

theorem branch_sound [FloorRing K] (ctx : Ctx K) (hc : CrownSound ctx) (e : PE K) (h : NoSpecial e) : ExprSound ctx.F (branchBounds ctx) e :=
  plain_sound ctx hc _ _ _ e ⟨h, by simp⟩

theorem walk_head (n : Nat) (e : PE K) : ∃ t, walk (n + 1) [e] = e :: t := ⟨_, rfl⟩

theorem firstArgs_call1 (ks : List String) (g a : String) (h : a ∈ ks) : firstArgs ks (.call1 g (.name a) : PE K) = [a] := by
  have : (walk (depth (.call1 g (.name a) : PE K)) [(.call1 g (.name a) : PE K)]).findSome? callArgs = some [(.name a : PE K)] := rfl
  simp only [firstArgs, this, List.filterMap_cons, h, if_true, List.filterMap_nil]

theorem firstArgs_call2 (ks : List String) (g a b : String) (h : a ∈ ks) (h' : b ∈ ks) :
    firstArgs ks (.call2 g (.name a) (.name b) : PE K) = [a, b] := by
  have : (walk (depth (.call2 g (.name a) (.name b) : PE K)) [(.call2 g (.name a) (.name b) : PE K)]).findSome? callArgs = some [(.name a : PE K), .name b] := rfl
  simp only [firstArgs, this, List.filterMap_cons, h, h', if_true, List.filterMap_nil]

theorem ownCall_cases (f : PFun K) (e : PE K) (h : OwnCall f e) : (∃ a, e = .call1 f.name (.name a) ∧ f.params = [a]) ∨
    ∃ a b, e = .call2 f.name (.name a) (.name b) ∧ f.params = [a, b] := by
  unfold OwnCall at h
  split at h
  · left; exact ⟨_, by rw [h.1], h.2⟩
  · right; exact ⟨_, _, by rw [h.1], h.2⟩
  · exact h.elim

theorem pwcall_sound [FloorRing K] (ctx : Ctx K) (hc : CrownSound ctx) (ho : OptCorrect ctx.opt) (pws : List (PFun K)) (hm : CallsMean ctx.F pws)
    (hg : ∀ f ∈ pws, GoodPiecewise f) (e : PE K) (h : PwCall pws e) : ExprSound ctx.F (exprBounds ctx pws) e := by
  obtain ⟨hs, f, hf, hown, huniq⟩ := h
  intro b l hl env v hin hv
  obtain ⟨hnod, pre, post, bb, o, c, outs, hpre, hbody, hch, houts⟩ := hg f hf
  -- the arguments and the value
  obtain ⟨vals, hargs, hvals, hcall, hmem⟩ : ∃ vals, firstArgs (Dict.keys b) e = f.params ∧
      List.Forall₂ (fun a v => Dict.get? env a = some v) f.params vals ∧ callFn ctx.F f vals = some v ∧ f.name ∈ idents e := by
    rcases ownCall_cases f e hown with ⟨a, rfl, hp⟩ | ⟨a, a', rfl, hp⟩
    · simp only [evalE, Option.bind_eq_some_iff] at hv
      obtain ⟨w, hw, hv⟩ := hv
      refine ⟨[w], ?_, ?_, ?_, by simp [idents]⟩
      · have : a ∈ Dict.keys b := hin.known a w hw
        rw [firstArgs_call1 _ _ _ this, hp]
      · rw [hp]; exact .cons hw .nil
      · rw [← (hm f hf).1]; exact hv
    · simp only [evalE, Option.bind_eq_some_iff] at hv
      obtain ⟨w, hw, w', hw', hv⟩ := hv
      refine ⟨[w, w'], ?_, ?_, ?_, by simp [idents]⟩
      · have h1 : a ∈ Dict.keys b := hin.known a w hw
        have h2 : a' ∈ Dict.keys b := hin.known a' w' hw'
        rw [firstArgs_call2 _ _ _ _ h1 h2, hp]
      · rw [hp]; exact .cons hw (.cons hw' .nil)
      · rw [← (hm f hf).2]; exact hv
  have hfind : pws.find? (fun f => mentions f.name e) = some f := by
    cases hc : pws.find? (fun f => mentions f.name e) with
    | none =>
      rw [List.find?_eq_none] at hc
      exact absurd ((mentions_iff _ _).2 ⟨f.name, hmem, List.infix_refl _⟩) (hc f hf)
    | some g =>
      have h1 := List.find?_some hc
      rw [huniq g (List.mem_of_find?_eq_some hc) ((mentions_iff _ _).1 h1)]
  have hl' : handlePiecewise ctx.opt (branchBounds ctx) f f.params b = .ok l := by
    unfold exprBounds dispatch at hl
    simp only [mapIds_alias e hs, find_angular_none e hs, hfind, hargs] at hl
    exact hl
  refine handlePiecewise_covers ctx.F ctx.opt ho (branchBounds ctx) f hnod pre post bb o c outs hpre hbody hch
    (fun e he => branch_sound ctx hc e (houts e he)) b l hl' vals ?_ v hcall
  refine hvals.imp ?_
  intro a w hw
  have hk := hin.known a w hw
  cases hb : Dict.get? b a with
  | none => exact absurd hk ((Dict.get?_none_iff _ _).1 hb)
  | some l =>
    obtain ⟨w', hw', hh⟩ := hin.inside _ (Dict.mem_of_get? hb)
    rw [hw] at hw'; injection hw' with hw'; subst hw'
    exact ⟨l, rfl, hh⟩

/-! ### The loop over the statements -/

theorem envIn_set (env : Env K) (cur : Bounds K) (hnd : (cur.map Prod.fst).Nodup) (hin : EnvIn env cur) (x : String) (v : K) (l : List (K × K)) (hv : InSome l v) :
    EnvIn (Dict.set env x v) (Dict.set cur x l) := by
  have hnd' := Dict.nodup_set hnd x l
  refine ⟨?_, ?_⟩
  · intro p hp
    have hg := Dict.get?_of_mem hnd' (k := p.1) (v := p.2) hp
    by_cases hx : p.1 = x
    · rw [hx, Dict.get?_set_self] at hg
      injection hg with hg
      exact ⟨v, by rw [hx, Dict.get?_set_self], by rw [← hg]; exact hv⟩
    · rw [Dict.get?_set_ne _ _ _ _ (Ne.symm hx)] at hg
      obtain ⟨w, hw, hh⟩ := hin.inside (p.1, p.2) (Dict.mem_of_get? hg)
      exact ⟨w, by rw [Dict.get?_set_ne _ _ _ _ (Ne.symm hx)]; exact hw, hh⟩
  · intro n w hw
    have hk : ((Dict.get? (Dict.set cur x l) n).isSome = true) := by
      by_cases hx : n = x
      · rw [hx, Dict.get?_set_self]; rfl
      · rw [Dict.get?_set_ne _ _ _ _ (Ne.symm hx)] at hw ⊢
        exact (Dict.isSome_get?_iff _ _).2 (hin.known n w hw)
    exact (Dict.isSome_get?_iff _ _).1 hk

theorem parseLoop_covers (F : Funs K) (eb : EB K) : ∀ (body : List (PS K)) (cur : Bounds K) (hist : List (Bounds K)) (r : Bounds K × List (Bounds K)),
    (∀ x e, PS.assign x e ∈ body → ExprSound F eb e) → (cur.map Prod.fst).Nodup → parseLoop eb body cur hist = .ok r → ∀ env env', EnvIn env cur →
    envAtReturn F env body = some env' → EnvIn env' r.1
  | [], cur, hist, r, _, _, h, env, env', hin, he => by
    injection h with h; subst h
    injection he with he; subst he
    exact hin
  | .ret _ :: _, cur, hist, r, _, _, h, env, env', hin, he => by
    injection h with h; subst h
    injection he with he; subst he
    exact hin
  | .assign x e :: rest, cur, hist, r, hs, hnd, h, env, env', hin, he => by
    obtain ⟨l, hl, h⟩ := (bind_ok_iff _ _ _).1 h
    simp only [envAtReturn, Option.bind_eq_some_iff] at he
    obtain ⟨v, hv, he⟩ := he
    have hin' := envIn_set env cur hnd hin x v l (hs x e (by simp) cur l hl env v hin hv)
    exact parseLoop_covers F eb rest _ _ r (fun x e hm => hs x e (by simp [hm])) (Dict.nodup_set hnd x l) h _ env' hin' he
  | .ifS _ _ _ :: _, cur, hist, r, _, _, h, env, env', hin, he => by cases h
  | .skip :: _, cur, hist, r, _, _, h, env, env', hin, he => by cases h

theorem mem_keys_set {V : Type} (d : Dict String V) (x : String) (v : V) (n : String) : n ∈ (Dict.set d x v).map Prod.fst ↔ n ∈ d.map Prod.fst ∨ n = x := by
  rw [← Dict.isSome_get?_iff, ← Dict.isSome_get?_iff, Dict.get?_set]
  split
  · next h => subst h; simp
  · next h => exact ⟨.inl, fun hh => hh.resolve_right fun e => h e.symm⟩

theorem parseLoop_vars (eb : EB K) : ∀ (body : List (PS K)) (cur : Bounds K) (hist : List (Bounds K)) (r : Bounds K × List (Bounds K)),
    parseLoop eb body cur hist = .ok r → ∀ n, n ∈ r.1.map Prod.fst ↔ n ∈ cur.map Prod.fst ∨ n ∈ assignedVars body
  | [], cur, hist, r, h, n => by injection h with h; subst h; simp [assignedVars]
  | .ret _ :: _, cur, hist, r, h, n => by injection h with h; subst h; simp [assignedVars]
  | .assign x e :: rest, cur, hist, r, h, n => by
    obtain ⟨l, hl, h⟩ := (bind_ok_iff _ _ _).1 h
    rw [parseLoop_vars eb rest _ _ r h n, mem_keys_set, assignedVars, List.mem_cons, or_assoc]
  | .ifS _ _ _ :: _, cur, hist, r, h, n => by cases h
  | .skip :: _, cur, hist, r, h, n => by cases h

theorem set_all {V : Type} (P : V → Prop) (d : Dict String V) (x : String) (v : V) (hd : ∀ p ∈ d, P p.2) (hv : P v) : ∀ p ∈ Dict.set d x v, P p.2 := by
  induction d with
  | nil => intro p hp; rw [Dict.set, List.mem_singleton] at hp; rw [hp]; exact hv
  | cons q d ih =>
    intro p hp
    rw [Dict.set] at hp
    split at hp
    · rcases List.mem_cons.1 hp with rfl | hp
      · exact hv
      · exact hd p (by simp [hp])
    · rcases List.mem_cons.1 hp with rfl | hp
      · exact hd _ (by simp)
      · exact ih (fun p hp => hd p (by simp [hp])) p hp

theorem parseLoop_single (eb : EB K) : ∀ (body : List (PS K)) (cur : Bounds K) (hist : List (Bounds K)) (r : Bounds K × List (Bounds K)),
    (∀ x e, PS.assign x e ∈ body → ∀ b l, eb e b = .ok l → l.length = 1) → parseLoop eb body cur hist = .ok r → (∀ p ∈ cur, p.2.length = 1) →
    ∀ p ∈ r.1, p.2.length = 1
  | [], cur, hist, r, _, h, hc => by injection h with h; subst h; exact hc
  | .ret _ :: _, cur, hist, r, _, h, hc => by injection h with h; subst h; exact hc
  | .assign x e :: rest, cur, hist, r, hs, h, hc => by
    obtain ⟨l, hl, h⟩ := (bind_ok_iff _ _ _).1 h
    exact parseLoop_single eb rest _ _ r (fun x e hm => hs x e (by simp [hm])) h
      (set_all (fun l => l.length = 1) cur x l hc (hs x e (by simp) cur l hl))
  | .ifS _ _ _ :: _, cur, hist, r, _, h, hc => by cases h
  | .skip :: _, cur, hist, r, _, h, hc => by cases h

/-! ### One interval -/

theorem envelope_single (l r : List (K × K)) (h : envelope l = .ok r) : r.length = 1 := by
  unfold envelope at h
  split at h
  · cases h
  · injection h with h; subst h; rfl

theorem crownLoop_single (ctx : Ctx K) (e : PE K) (args : List String) : ∀ (combos : List (List (K × K))) (acc r : List (K × K)),
    crownLoop ctx e args combos acc = .ok r → r.length = 1
  | [], acc, r, h => envelope_single acc r h
  | c :: rest, acc, r, h => by
    rw [crownLoop] at h
    split at h
    · exact crownLoop_single ctx e args rest _ r h
    · split at h
      · split at h
        · injection h with h; subst h; rfl
        · cases h
      · cases h

theorem hull_single (l r : List (K × K)) (h : hull l = .ok r) : r.length = 1 := by
  cases l with
  | nil => cases h
  | cons a l => injection h with h; subst h; rfl

theorem plain_single [FloorRing K] (ctx : Ctx K) (pws : List (PFun K)) (e : PE K) (h : Plain pws e) (b : Bounds K) (l : List (K × K))
    (hl : exprBounds ctx pws e b = .ok l) : l.length = 1 := by
  unfold exprBounds at hl
  rw [dispatch_plain ctx _ pws _ e b h] at hl
  obtain ⟨bl, _, hl⟩ := (bind_ok_iff _ _ _).1 hl
  exact crownLoop_single ctx e _ _ _ l hl

theorem pwcall_single [FloorRing K] (ctx : Ctx K) (pws : List (PFun K)) (e : PE K) (h : PwCall pws e) (b : Bounds K) (l : List (K × K))
    (hl : exprBounds ctx pws e b = .ok l) : l.length = 1 := by
  obtain ⟨hs, f, hf, hown, huniq⟩ := h
  have hmem : f.name ∈ idents e := by
    rcases ownCall_cases f e hown with ⟨a, rfl, _⟩ | ⟨a, a', rfl, _⟩ <;> simp [idents]
  unfold exprBounds dispatch at hl
  simp only [mapIds_alias e hs, find_angular_none e hs] at hl
  split at hl
  · obtain ⟨bl, _, hl⟩ := (bind_ok_iff _ _ _).1 hl
    obtain ⟨parsed, _, hl⟩ := (bind_ok_iff _ _ _).1 hl
    obtain ⟨all, _, hl⟩ := (bind_ok_iff _ _ _).1 hl
    exact hull_single _ _ hl
  · next hc =>
    rw [List.find?_eq_none] at hc
    exact absurd ((mentions_iff _ _).2 ⟨f.name, hmem, List.infix_refl _⟩) (hc f hf)

theorem goodBody_goodFor [FloorRing K] (ctx : Ctx K) (hc : CrownSound ctx) (ho : OptCorrect ctx.opt) (pws : List (PFun K)) (hm : CallsMean ctx.F pws)
    (hg : ∀ f ∈ pws, GoodPiecewise f) (f : PFun K) (hb : GoodBody pws f.body) : GoodFor ctx.F (exprBounds ctx pws) f := by
  intro x e hx
  rcases hb x e hx with h | h
  · exact ⟨plain_sound ctx hc _ pws _ e h, fun b l hl => plain_single ctx pws e h b l hl⟩
  · exact ⟨pwcall_sound ctx hc ho pws hm hg e h, fun b l hl => pwcall_single ctx pws e h b l hl⟩

/-! ### Splitting -/

theorem between (a : Nat → K) (v : K) : ∀ n, 0 < n → a 0 ≤ v → v ≤ a n → ∃ i < n, a i ≤ v ∧ v ≤ a (i + 1)
  | 0, h, _, _ => absurd h (lt_irrefl 0)
  | 1, _, h0, h1 => ⟨0, Nat.one_pos, h0, h1⟩
  | n + 2, _, h0, h1 => by
    rcases le_total (a (n + 1)) v with h | h
    · exact ⟨n + 1, by omega, h, h1⟩
    · obtain ⟨i, hi, hh⟩ := between a v (n + 1) (by omega) h0 h
      exact ⟨i, by omega, hh⟩

theorem splitIv_covers (n : Nat) (b : K × K) (hn : 0 < n ∨ b.1 = b.2) (v : K) (h1 : b.1 ≤ v) (h2 : v ≤ b.2) : InSome (splitIv n b) v := by
  unfold splitIv
  split
  · exact ⟨b, by simp, h1, h2⟩
  · next hne =>
    have hn := hn.resolve_right hne
    obtain ⟨i, hi, hh⟩ := between (linPoint b.1 b.2 n) v n hn (by unfold linPoint; rw [if_neg (by omega)]; simpa using h1) (by simpa [linPoint] using h2)
    exact ⟨_, List.mem_map_of_mem (List.mem_range.2 hi), hh⟩

theorem boxDict_nodup (ps : List String) (hn : ps.Nodup) (input : List (K × K)) (hl : ps.length = input.length) :
    boxDict ps input = ps.zip (input.map fun b => [b]) := zipDict_nodup _ _ hn (by simpa using hl)

theorem boxDict_single (ps : List String) (hn : ps.Nodup) (input : List (K × K)) (hl : ps.length = input.length) : ∀ p ∈ boxDict ps input, p.2.length = 1 := by
  rw [boxDict_nodup ps hn input hl]
  intro p hp
  obtain ⟨b, _, hb⟩ := List.mem_map.1 (List.of_mem_zip hp).2
  rw [← hb]; rfl

theorem boxDict_keys (ps : List String) (hn : ps.Nodup) (input : List (K × K)) (hl : ps.length = input.length) : (boxDict ps input).map Prod.fst = ps := by
  rw [boxDict_nodup ps hn input hl, List.map_fst_zip (by simp [hl])]

/-- The values of the arguments lie in a box of the split. -/
theorem split_env (ps : List String) (hn : ps.Nodup) (env : Env K) (n : Nat) (input : List (K × K)) (h0 : 0 < n ∨ ∀ b ∈ input, b.1 = b.2) (hl : ps.length = input.length)
    (hin : EnvIn env (boxDict ps input)) : ∃ sb ∈ product (input.map (splitIv n)), ps.length = sb.length ∧ EnvIn env (boxDict ps sb) := by
  have hz := hin.inside
  rw [boxDict_nodup ps hn input hl] at hz
  have key : ∀ (ps : List String) (input : List (K × K)), (0 < n ∨ ∀ b ∈ input, b.1 = b.2) → ps.length = input.length → (∀ p ∈ ps.zip (input.map fun b => [b]), ∃ w, Dict.get? env p.1 = some w ∧ InSome p.2 w) →
      ∃ sb, List.Forall₂ (fun x l => x ∈ l) sb (input.map (splitIv n)) ∧ ps.length = sb.length ∧
        ∀ p ∈ ps.zip (sb.map fun b => [b]), ∃ w, Dict.get? env p.1 = some w ∧ InSome p.2 w := by
    intro ps
    induction ps with
    | nil =>
      intro input h0 hl _
      cases input with
      | nil => exact ⟨[], .nil, rfl, by simp⟩
      | cons _ _ => simp at hl
    | cons a ps ih =>
      intro input h0 hl hz
      cases input with
      | nil => simp at hl
      | cons b input =>
        obtain ⟨sb, h1, h2, h3⟩ := ih input (h0.imp_right fun h b hb => h b (by simp [hb])) (by simpa using hl) fun p hp => hz p (by simp [hp])
        obtain ⟨w, hw, iv, hiv, hh⟩ := hz (a, [b]) (by simp)
        rw [List.mem_singleton.1 hiv] at hh
        obtain ⟨c, hc, hcv⟩ := splitIv_covers n b (h0.imp_right fun h => h b (by simp)) w hh.1 hh.2
        refine ⟨c :: sb, .cons hc h1, by simp [h2], ?_⟩
        intro p hp
        rw [List.map_cons, List.zip_cons_cons] at hp
        rcases List.mem_cons.1 hp with rfl | hp
        · exact ⟨w, hw, c, List.mem_singleton_self _, hcv⟩
        · exact h3 p hp
  obtain ⟨sb, h1, h2, h3⟩ := key ps input h0 hl hz
  refine ⟨sb, (mem_product _ _).2 h1, h2, ?_, ?_⟩
  · rw [boxDict_nodup ps hn sb h2]; exact h3
  · rw [boxDict_keys ps hn sb h2, ← boxDict_keys ps hn input hl]; exact hin.known

theorem unionVar_covers (p : K) (all : List (List (K × K))) (r : List (K × K)) (h : unionVar p all = .ok r) (hs : ∀ l ∈ all, l.length = 1)
    (v : K) (l : List (K × K)) (hl : l ∈ all) (hv : InSome l v) : InSome r v ∧ r.length = 1 := by
  unfold unionVar at h
  rw [if_neg] at h
  swap
  · intro hc
    obtain ⟨l, hl, hc⟩ := List.any_eq_true.1 hc
    have := of_decide_eq_true hc
    rw [hs l hl] at this
    exact lt_irrefl _ this
  obtain ⟨bs, hbs, h⟩ := (bind_ok_iff _ _ _).1 h
  have hbs := (mapM_ok_iff _ _ _).1 hbs
  obtain ⟨b, hb, hb'⟩ := forall₂_mem_left hbs hl
  refine ⟨envelope_covers bs r h v ?_, envelope_single bs r h⟩
  obtain ⟨iv, hiv, hh⟩ := hv
  match l, hs l hl with
  | [c], _ =>
    injection hb' with hb'; subst hb'
    rw [List.mem_singleton.1 hiv] at hh
    exact ⟨c, hb, hh⟩

theorem unionVar_single (p : K) (all : List (List (K × K))) (r : List (K × K)) (h : unionVar p all = .ok r) (hs : ∀ l ∈ all, l.length = 1) : r.length = 1 := by
  unfold unionVar at h
  rw [if_neg] at h
  swap
  · intro hc
    obtain ⟨l, hl, hc⟩ := List.any_eq_true.1 hc
    have := of_decide_eq_true hc
    rw [hs l hl] at this
    exact lt_irrefl _ this
  obtain ⟨bs, hbs, h⟩ := (bind_ok_iff _ _ _).1 h
  exact envelope_single bs r h

theorem lookupB_ok (v : String) (cb : Bounds K) (l : List (K × K)) (h : lookupB v cb = .ok l) : Dict.get? cb v = some l := by
  unfold lookupB at h
  split at h
  · next l' hl' => injection h with h; rw [hl', h]
  · cases h

theorem unionAll_spec (p : K) (all : List (Bounds K)) (u : Bounds K) (h : unionAll p all = .ok u) (hs : ∀ r ∈ all, ∀ q ∈ r, q.2.length = 1)
    (vars : String → Prop) (hvars : ∀ r ∈ all, ∀ n, n ∈ r.map Prod.fst ↔ vars n) :
    (∀ q ∈ u, q.2.length = 1) ∧ (∀ n, n ∈ u.map Prod.fst ↔ vars n) ∧ ∀ r ∈ all, ∀ env, EnvIn env r → EnvIn env u := by
  unfold unionAll at h
  cases all with
  | nil => cases h
  | cons first rest =>
    dsimp only at h
    have hf := (mapM_ok_iff _ _ _).1 h
    have hkeys : u.map Prod.fst = first.map Prod.fst := by
      have : ∀ (ks : List String) (u : Bounds K), List.Forall₂ (fun v q => (((first :: rest).mapM (lookupB v)).bind fun bs => (unionVar p bs).map fun l => (v, l)) = .ok q) ks u →
          u.map Prod.fst = ks := by
        intro ks u hf
        induction hf with
        | nil => rfl
        | cons h _ ih =>
          obtain ⟨bs, _, h⟩ := (bind_ok_iff _ _ _).1 h
          obtain ⟨l, _, rfl⟩ := (map_ok_iff _ _ _).1 h
          rw [List.map_cons, ih]
      exact this _ _ hf
    have hq : ∀ q ∈ u, q.2.length = 1 ∧ ∀ r ∈ first :: rest, ∀ env, EnvIn env r → ∃ w, Dict.get? env q.1 = some w ∧ InSome q.2 w := by
      intro q hq
      obtain ⟨v, hv, h⟩ := forall₂_mem_right hf hq
      obtain ⟨bs, hbs, h⟩ := (bind_ok_iff _ _ _).1 h
      obtain ⟨l, hl, rfl⟩ := (map_ok_iff _ _ _).1 h
      have hbs := (mapM_ok_iff _ _ _).1 hbs
      have hs' : ∀ l ∈ bs, l.length = 1 := by
        intro l hl
        obtain ⟨r, hr, hlr⟩ := forall₂_mem_right hbs hl
        exact hs r hr _ (Dict.mem_of_get? (lookupB_ok _ _ _ hlr))
      refine ⟨unionVar_single p bs l hl hs', ?_⟩
      intro r hr env hin
      obtain ⟨lr, hlr, hlr'⟩ := forall₂_mem_left hbs hr
      obtain ⟨w, hw, hh⟩ := hin.inside _ (Dict.mem_of_get? (lookupB_ok _ _ _ hlr'))
      exact ⟨w, hw, (unionVar_covers p bs l hl hs' w lr hlr hh).1⟩
    refine ⟨fun q h => (hq q h).1, fun n => by rw [hkeys]; exact hvars first (by simp) n, ?_⟩
    intro r hr env hin
    refine ⟨fun q h => (hq q h).2 r hr env hin, ?_⟩
    intro n w hw
    rw [hkeys, hvars first (by simp) n, ← hvars r hr n]
    exact hin.known n w hw

/-! ### The cache -/

/-- What the cache holds: for each entry the bounds cover the function with that name. -/
structure CacheGood (F : Funs K) (defs : String → PFun K) (st : Cache K) : Prop where
  covers : ∀ key r, Dict.get? st key = some r → (key.1.map Prod.fst).Nodup → CoversValues F (defs key.2) key.1 r.1
  vars : ∀ key r, Dict.get? st key = some r → ∀ n, n ∈ r.1.map Prod.fst ↔ n ∈ key.1.map Prod.fst ∨ n ∈ assignedVars (defs key.2).body
  single : ∀ key r, Dict.get? st key = some r → (∀ q ∈ key.1, q.2.length = 1) → ∀ q ∈ r.1, q.2.length = 1

theorem cacheGood_nil (F : Funs K) (defs : String → PFun K) : CacheGood F defs [] :=
  ⟨(fun k r h => by cases h), (fun k r h => by cases h), (fun k r h => by cases h)⟩

theorem cacheGood_set (F : Funs K) (defs : String → PFun K) (st : Cache K) (hst : CacheGood F defs st) (key : Bounds K × String) (r : Bounds K × Option (List (Bounds K)))
    (h1 : (key.1.map Prod.fst).Nodup → CoversValues F (defs key.2) key.1 r.1)
    (h2 : ∀ n, n ∈ r.1.map Prod.fst ↔ n ∈ key.1.map Prod.fst ∨ n ∈ assignedVars (defs key.2).body)
    (h3 : (∀ q ∈ key.1, q.2.length = 1) → ∀ q ∈ r.1, q.2.length = 1) : CacheGood F defs (Dict.set st key r) := by
  refine ⟨?_, ?_, ?_⟩
  · intro k r' hk
    rw [Dict.get?_set] at hk
    split at hk
    · next e => subst e; injection hk with hk; subst hk; exact h1
    · exact hst.covers k r' hk
  · intro k r' hk
    rw [Dict.get?_set] at hk
    split at hk
    · next e => subst e; injection hk with hk; subst hk; exact h2
    · exact hst.vars k r' hk
  · intro k r' hk
    rw [Dict.get?_set] at hk
    split at hk
    · next e => subst e; injection hk with hk; subst hk; exact h3
    · exact hst.single k r' hk

theorem parseFunction_spec (F : Funs K) (eb : EB K) (f : PFun K) (hg : GoodFor F eb f) (input : Bounds K) (r : Bounds K × List (Bounds K))
    (h : parseFunction eb f input = .ok r) :
    ((input.map Prod.fst).Nodup → CoversValues F f input r.1) ∧ (∀ n, n ∈ r.1.map Prod.fst ↔ n ∈ input.map Prod.fst ∨ n ∈ assignedVars f.body) ∧
    ((∀ q ∈ input, q.2.length = 1) → ∀ q ∈ r.1, q.2.length = 1) :=
  ⟨fun hn env env' hin he => parseLoop_covers F eb f.body input _ r (fun x e hx => (hg x e hx).1) hn h env env' hin he,
   parseLoop_vars eb f.body input _ r h, fun hs => parseLoop_single eb f.body input _ r (fun x e hx => (hg x e hx).2) h hs⟩

theorem parseCached_spec (F : Funs K) (defs : String → PFun K) (st : Cache K) (hst : CacheGood F defs st) (eb : EB K) (f : PFun K) (hd : defs f.name = f)
    (hg : GoodFor F eb f) (input : Bounds K) (cache parent : Bool) :
    CacheGood F defs (parseCached eb f input cache parent st).2 ∧ ∀ r, (parseCached eb f input cache parent st).1 = .ok r →
      ((input.map Prod.fst).Nodup → CoversValues F f input r.1) ∧ (∀ n, n ∈ r.1.map Prod.fst ↔ n ∈ input.map Prod.fst ∨ n ∈ assignedVars f.body) ∧
      ((∀ q ∈ input, q.2.length = 1) → ∀ q ∈ r.1, q.2.length = 1) := by
  unfold parseCached
  split
  · next r' hr' =>
    refine ⟨hst, ?_⟩
    intro r h
    injection h with h; subst h
    have h1 := hst.covers _ _ hr'
    have h2 := hst.vars _ _ hr'
    have h3 := hst.single _ _ hr'
    dsimp only at h1 h2
    rw [hd] at h1 h2
    exact ⟨h1, h2, h3⟩
  · split
    · exact ⟨hst, fun r h => by cases h⟩
    · next r' hr' =>
      obtain ⟨h1, h2, h3⟩ := parseFunction_spec F eb f hg input r' hr'
      refine ⟨?_, ?_⟩
      · dsimp only
        split
        · refine cacheGood_set F defs st hst _ _ ?_ ?_ h3
          · dsimp only; rw [hd]; exact h1
          · dsimp only; rw [hd]; exact h2
        · exact hst
      · intro r h
        injection h with h; subst h
        exact ⟨h1, h2, h3⟩

theorem parseArray_spec (F : Funs K) (defs : String → PFun K) (st : Cache K) (hst : CacheGood F defs st) (p : K) (eb : EB K) (f : PFun K) (hd : defs f.name = f)
    (hn : f.params.Nodup) (hg : GoodFor F eb f) (input : List (K × K)) (cache : Bool) (n : Nat) :
    CacheGood F defs (parseArray p eb f input cache n st).2 ∧ ∀ r, (parseArray p eb f input cache n st).1 = .ok r →
      CoversValues F f (boxDict f.params input) r.bounds := by
  unfold parseArray
  split
  · exact ⟨hst, fun r h => by cases h⟩
  next hlen =>
  have hlen : f.params.length = input.length := by simpa using (not_not.1 hlen).symm
  have hkn : ((boxDict f.params input).map Prod.fst).Nodup := by rw [boxDict_keys _ hn _ hlen]; exact hn
  split
  · exact ⟨hst, fun r h => by cases h⟩
  dsimp only
  split
  · next r' hr' =>
    refine ⟨hst, ?_⟩
    intro r h
    injection h with h; subst h
    have h1 := hst.covers _ _ hr' hkn
    dsimp only at h1
    rw [hd] at h1
    exact h1
  split
  · obtain ⟨h1, h2⟩ := parseCached_spec F defs st hst eb f hd hg (boxDict f.params input) cache false
    refine ⟨h1, ?_⟩
    intro r h
    obtain ⟨r', hr', rfl⟩ := (map_ok_iff _ _ _).1 h
    exact (h2 r' hr').1 hkn
  · next h1 =>
    split
    · exact ⟨hst, fun r h => by cases h⟩
    · next u hu =>
      obtain ⟨all, hall, hu⟩ := (bind_ok_iff _ _ _).1 hu
      have hall := (mapM_ok_iff _ _ _).1 hall
      have hlen' : ∀ sb ∈ product (input.map (splitIv n)), f.params.length = sb.length := by
        intro sb hsb
        rw [((mem_product _ _).1 hsb).length_eq, List.length_map, hlen]
      have hr : ∀ r ∈ all, ∃ sb ∈ product (input.map (splitIv n)), CoversValues F f (boxDict f.params sb) r ∧
          (∀ m, m ∈ r.map Prod.fst ↔ m ∈ f.params ∨ m ∈ assignedVars f.body) ∧ ∀ q ∈ r, q.2.length = 1 := by
        intro r hr
        obtain ⟨sb, hsb, h⟩ := forall₂_mem_right hall hr
        obtain ⟨x, hx, rfl⟩ := (map_ok_iff _ _ _).1 h
        obtain ⟨y, hy, rfl⟩ := (map_ok_iff _ _ _).1 hx
        obtain ⟨g1, g2, g3⟩ := (parseCached_spec F defs st hst eb f hd hg (boxDict f.params sb) cache true).2 y hy
        rw [boxDict_keys _ hn _ (hlen' sb hsb)] at g1 g2
        exact ⟨sb, hsb, g1 hn, g2, g3 (boxDict_single _ hn _ (hlen' sb hsb))⟩
      obtain ⟨u1, u2, u3⟩ := unionAll_spec p all u hu (fun r h => (hr r h).choose_spec.2.2.2) (fun m => m ∈ f.params ∨ m ∈ assignedVars f.body)
        (fun r h => (hr r h).choose_spec.2.2.1)
      have hcov : CoversValues F f (boxDict f.params input) u := by
        intro env env' hin he
        -- without parts there is a result only if all intervals are points
        have h0 : 0 < n ∨ ∀ b ∈ input, b.1 = b.2 := by
          rcases Nat.eq_zero_or_pos n with rfl | h
          · right
            intro b hb
            obtain ⟨r, hr⟩ : ∃ r, r ∈ all := by
              cases all with
              | nil => cases hu
              | cons r _ => exact ⟨r, by simp⟩
            obtain ⟨sb, hsb, _⟩ := forall₂_mem_right hall hr
            obtain ⟨c, _, hc⟩ := forall₂_mem_right ((mem_product _ _).1 hsb) (List.mem_map_of_mem hb)
            by_contra hne
            simp [splitIv, hne] at hc
          · exact .inl h
        obtain ⟨sb, hsb, hl', hin'⟩ := split_env f.params hn env n input h0 hlen hin
        obtain ⟨r, hrm, h⟩ := forall₂_mem_left hall hsb
        obtain ⟨x, hx, rfl⟩ := (map_ok_iff _ _ _).1 h
        obtain ⟨y, hy, rfl⟩ := (map_ok_iff _ _ _).1 hx
        obtain ⟨g1, g2, g3⟩ := (parseCached_spec F defs st hst eb f hd hg (boxDict f.params sb) cache true).2 y hy
        rw [boxDict_keys _ hn _ hl'] at g1
        exact u3 _ hrm env' (g1 hn env env' hin' he)
      refine ⟨?_, ?_⟩
      · dsimp only
        split
        · refine cacheGood_set F defs st hst _ _ ?_ ?_ (fun _ => u1)
          · dsimp only; rw [hd]; exact fun _ => hcov
          · dsimp only; rw [hd, boxDict_keys _ hn _ hlen]; exact u2
        · exact hst
      · intro r h
        injection h with h; subst h
        exact hcov

end Verif.Pars
