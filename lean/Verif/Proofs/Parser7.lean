import Verif.Proofs.Parser6

/-! The extracted paths and asserts of a decision logic. -/

set_option autoImplicit false

namespace Verif.Py

variable {V : Type}

/-! ### the first statement -/

/-- the attribute of the input object -/
def initCell (ego T a : String) : Cell V := .ast (.attr (.hole ego (some T)) a)

/-- The attributes of the new object are those of the input. -/
theorem expand_ok {ego T out : String} : ∀ (attrs : List String) (env env' : Env V),
    (env.lookup out = none ∨ ∃ d, env.lookup out = some (.obj d) ∧ ∀ a c, Dict.get? d a = some c → c = initCell ego T a) →
    attrs.foldlM (fun (e : Env V) a => setAttr e out a (initCell ego T a)) env = .ok env' →
    (∀ k, k ≠ out → env'.lookup k = env.lookup k) ∧ env'.asserts = env.asserts ∧ env'.modeDefs = env.modeDefs ∧
    (env'.lookup out = none ∧ attrs = [] ∨ ∃ d, env'.lookup out = some (.obj d) ∧
      (∀ a c, Dict.get? d a = some c → c = initCell ego T a) ∧ (∀ a ∈ attrs, Dict.get? d a = some (initCell ego T a)) ∧
      ∀ d0 a c, env.lookup out = some (.obj d0) → Dict.get? d0 a = some c → Dict.get? d a = some c) := by
  intro attrs
  induction attrs with
  | nil =>
    intro env env' h0 h
    simp only [List.foldlM_nil] at h
    cases h
    refine ⟨fun _ _ => rfl, rfl, rfl, ?_⟩
    rcases h0 with h0 | ⟨d, h0, h1⟩
    · exact .inl ⟨h0, rfl⟩
    · refine .inr ⟨d, h0, h1, by simp, ?_⟩
      intro d0 a c h2 h3
      rw [h0] at h2; cases h2; exact h3
  | cons a attrs ih =>
    intro env env' h0 h
    obtain ⟨e1, h1, h2⟩ := (foldlM_cons_ok ..).1 h
    have hstep : ∃ d1, e1 = env.set out (.obj d1) ∧ (∀ b c, Dict.get? d1 b = some c → c = initCell ego T b) ∧
        Dict.get? d1 a = some (initCell ego T a) ∧
        ∀ d0 b c, env.lookup out = some (.obj d0) → Dict.get? d0 b = some c → Dict.get? d1 b = some c := by
      unfold setAttr at h1
      rcases h0 with h0 | ⟨d, h0, h4⟩
      · rw [h0] at h1
        injection h1 with h1
        refine ⟨_, h1.symm, ?_, by simp [Dict.get?_cons], by simp [h0]⟩
        intro b c hb
        rw [Dict.get?_cons] at hb
        split at hb
        · rename_i e; subst e; injection hb with hb; exact hb.symm
        · cases hb
      · rw [h0] at h1
        injection h1 with h1
        refine ⟨_, h1.symm, ?_, Dict.get?_set_self .., ?_⟩
        · intro b c hb
          rw [Dict.get?_set] at hb
          split at hb
          · rename_i e; subst e; injection hb with hb; exact hb.symm
          · exact h4 b c hb
        · intro d0 b c h5 h6
          rw [h0] at h5; cases h5
          rw [Dict.get?_set]
          split
          · rename_i e; subst e; rw [h4 _ _ h6]
          · exact h6
    obtain ⟨d1, rfl, hd1, hd1a, hd1o⟩ := hstep
    obtain ⟨i1, i2, i3, i4⟩ := ih (env.set out (.obj d1)) env'
      (.inr ⟨d1, by rw [lookup_set, if_pos rfl], hd1⟩) h2
    refine ⟨?_, i2, i3, ?_⟩
    · intro k hk
      rw [i1 k hk, lookup_set, if_neg (fun e => hk e.symm)]
    · rcases i4 with ⟨i4, rfl⟩ | ⟨d, i4, i5, i6, i7⟩
      · simp only [List.foldlM_nil] at h2
        cases h2
        rw [lookup_set, if_pos rfl] at i4; cases i4
      · refine .inr ⟨d, i4, i5, ?_, ?_⟩
        · intro b hb
          rcases List.mem_cons.1 hb with rfl | hb
          · exact i7 d1 _ _ (by rw [lookup_set, if_pos rfl]) hd1a
          · exact i6 b hb
        · intro d0 b c h5 h6
          exact i7 d1 b c (by rw [lookup_set, if_pos rfl]) (hd1o d0 b c h5 h6)

/-- `out = copy.deepcopy(ego)` -/
theorem first_ok [DecidableEq V] {P : PyOps V} {N : Names} {env env' : Env V} {ν : Store V} {ego T out : String}
    {attrs : List String} (hI : Inv P N env ν ν) (hcopy : N.A "copy")
    (hego : env.lookup ego = some (.cell (.ast (.hole ego (some T))))) (hegoB : ¬ N.B ego)
    (hmode : env.modeDefs.contains ego = false) (hst : Dict.get? env.stateDefs T = some attrs) (hout : N.Local out)
    (hnone : env.lookup out = none) (h : procS P.zero env (.assign out (deepcopy ego)) = .ok env') :
    Inv P N env' ν (run P ν (.assign out (deepcopy ego))) ∧ env'.asserts = env.asserts ∧
    (env'.lookup out = none ∧ attrs = [] ∨ ∃ d, env'.lookup out = some (.obj d) ∧
      (∀ a c, Dict.get? d a = some c → c = initCell ego T a) ∧ (∀ a ∈ attrs, Dict.get? d a = some (initCell ego T a))) ∧
    P.getattr (run P ν (.assign out (deepcopy ego)) out) = P.getattr (ν ego) := by
  obtain ⟨⟨tc, hc⟩, -⟩ := hI.input "copy" hcopy
  rw [procS, deepcopy, procV_mcall, hc] at h
  have hcc : (isCopy (some (SV.cell (Cell.ast (Expr.hole (V := V) "copy" tc)))) && "deepcopy" == "deepcopy") = true := by
    simp [isCopy]
  rw [if_pos hcc] at h
  simp only [procV, hego, bind, Except.bind] at h
  rw [assignName] at h
  simp only [Option.bind, hst, hmode, Bool.false_eq_true, if_false] at h
  obtain ⟨h1, h2, h3, h4⟩ := expand_ok (ego := ego) (T := T) attrs env env' (.inl hnone) h
  have hval : run P ν (.assign out (deepcopy ego)) = upd ν out (ν ego) := by
    simp only [run, deepcopy, eval, evalList]
    rw [hI.copy hcopy]
  rw [hval]
  have hne : ∀ n, ¬ N.Local n → n ≠ out := by rintro n hn rfl; exact hn hout
  have hA : ∀ n, N.A n → n ≠ out := fun n hn => hne n (fun hl => hl.1 hn)
  have hB : ∀ n, N.B n → n ≠ out := fun n hn => hne n (fun hl => hl.2.1 hn)
  refine ⟨?_, h2, ?_, by rw [upd_eq]⟩
  · constructor
    · intro n hn
      obtain ⟨⟨t, h5⟩, h6⟩ := hI.input n hn
      exact ⟨⟨t, by rw [h1 n (hA n hn)]; exact h5⟩, by rw [upd_ne _ _ _ _ (hA n hn)]⟩
    · intro n hn; rw [h1 n (hB n hn)]; exact hI.fresh n hn
    · intro k c hk
      by_cases hko : k = out
      · subst hko
        rcases h4 with ⟨h4, -⟩ | ⟨d, h4, -⟩
        · rw [h4] at hk; cases hk
        · rw [h4] at hk; cases hk
      · rw [h1 k hko] at hk
        rw [upd_ne _ _ _ _ hko]
        exact hI.cells k c hk
    · intro k d a c hk hcc
      by_cases hko : k = out
      · subst hko
        rcases h4 with ⟨h4, -⟩ | ⟨d', h4, h5, -⟩
        · rw [h4] at hk; cases hk
        · rw [h4] at hk; cases hk
          have := h5 a c hcc
          subst this
          rw [upd_eq]
          refine ⟨(cellRel_ast ..).2 (.inr rfl), fun n hn => ?_⟩
          rw [initCell, occCell_ast] at hn
          simp only [occurs, beq_iff_eq] at hn; subst hn
          exact hegoB
      · rw [h1 k hko] at hk
        rw [upd_ne _ _ _ _ hko]
        exact hI.objs k d a c hk hcc
    · intro f k bs hf
      have hfo : f ≠ out := hne f (fun hl => by rw [hl.2.2] at hf; cases hf)
      obtain ⟨l, h5, h6⟩ := hI.lams f k bs hf
      exact ⟨l, by rw [h1 f hfo]; exact h5, by rw [upd_ne _ _ _ _ hfo]; exact h6⟩
    · rw [h3]; exact hI.modes
    · exact hI.copy
    · exact hI.copyB
  · rcases h4 with h4 | ⟨d, h4, h5, h6, -⟩
    · exact .inl h4
    · exact .inr ⟨d, h4, h5, h6⟩

/-! ### unconditional cases of the output -/

/-- The unconditional cases of the attributes of `out` are the initial values. -/
def OnlyInit (ego T out : String) (env : Env V) : Prop :=
  ∀ d a c k, env.lookup out = some (.obj d) → Dict.get? d a = some c → k ∈ c.asCases → k.conds = [] →
    k.val = .attr (.hole ego (some T)) a

section
variable [DecidableEq V]

theorem onlyInit_step {P : PyOps V} (hP : P.Lawful) {N : Names} {ν σ : Store V} {ego T out : String} {s : Stmt V}
    (ht : notTop out s = true) {env env' : Env V} (hs : StaticS N s) (hI : Inv P N env ν σ)
    (ho : OnlyInit ego T out env) (h : procS P.zero env s = .ok env') : OnlyInit ego T out env' := by
  have mono : ∀ {e : Env V}, e.lookup out = env.lookup out → OnlyInit ego T out e :=
    fun he d a c k hd => ho d a c k (he ▸ hd)
  match s with
  | .assign x e =>
    simp only [notTop, bne_iff_ne, ne_eq] at ht
    simp only [StaticS] at hs
    rw [procS] at h
    obtain ⟨⟨v, env1⟩, h1, h2⟩ := (bind_ok_iff ..).1 h
    obtain ⟨rfl, hr⟩ := procV_ok hP e hs.2.1 hI h1
    obtain ⟨e', rfl, hne⟩ := plain_ast hs.2.1 hs.2.2 hI h1
    simp only at h2
    rw [assignName_ast _ _ hne] at h2
    injection h2 with h2; subst h2
    exact mono (by rw [lookup_set, if_neg ht])
  | .setattr x a e =>
    simp only [notTop, bne_iff_ne, ne_eq] at ht
    simp only [StaticS] at hs
    rw [procS] at h
    have hex : ∃ env0, (if (env.lookup x).isNone then env.set x (.obj []) else env) = env0 ∧ Inv P N env0 ν σ ∧
        env0.lookup out = env.lookup out := by
      split
      · have hr : Res P N.B ν (some (SV.obj (V := V) [])) (σ x) :=
          ⟨fun c hc => (by injection hc with hc; cases hc),
            fun d a c hd hc => (by injection hd with hd; injection hd with hd; subst hd; simp [Dict.get?] at hc)⟩
        have := hI.setVar hs.1 hr
        rw [upd_self] at this
        exact ⟨_, rfl, this, by rw [lookup_set, if_neg ht]⟩
      · exact ⟨_, rfl, hI, rfl⟩
    obtain ⟨env0, he0, hI0, hl0⟩ := hex
    simp only [he0] at h
    obtain ⟨⟨v, env1⟩, h1, h2⟩ := (bind_ok_iff ..).1 h
    obtain ⟨rfl, hr⟩ := procV_ok hP e hs.2.1 hI0 h1
    obtain ⟨e', rfl, hne⟩ := plain_ast hs.2.1 hs.2.2 hI0 h1
    simp only [attrCell, bind, Except.bind] at h2
    unfold setAttr at h2
    split at h2
    · injection h2 with h2; subst h2; exact mono (by rw [lookup_set, if_neg ht, hl0])
    · injection h2 with h2; subst h2; exact mono (by rw [lookup_set, if_neg ht, hl0])
    · cases h2
  | .ite t b o =>
    simp only [StaticS] at hs
    rw [procS] at h
    obtain ⟨⟨v, env1⟩, h1, h2⟩ := (bind_ok_iff ..).1 h
    obtain ⟨rfl, hr⟩ := procV_ok hP t hs.1 hI h1
    obtain ⟨et, h3, h4⟩ := (bind_ok_iff ..).1 h2
    obtain ⟨ef, h5, h6⟩ := (bind_ok_iff ..).1 h4
    obtain ⟨hv, -⟩ := mergeIf_ok h6
    intro d a c k hd hc hk hk0
    have hm := hv out
    rw [hd] at hm
    generalize et.lookup out = tt at hm
    generalize ef.lookup out = ff at hm
    generalize hoo : env1.lookup out = oo at hm
    cases hm with
    | same => exact ho d a c k hoo hc hk hk0
    | obj hne hf hob hma =>
      rename_i dt df d0
      rcases object_ok hob with ⟨h7, h8⟩ | h7
      · subst h8
        rcases mergeAttrs_ok hma a with ⟨-, h9⟩ | ⟨-, c', h9, h10⟩
        · rw [hc] at h9; cases h9
        · rw [hc] at h10; injection h10 with h10; subst h10
          have := merge_dflt h9 hk hk0
          simp [casesOf] at this
      · rcases mergeAttrs_ok hma a with ⟨-, h9⟩ | ⟨-, c', h9, h10⟩
        · rw [hc] at h9
          exact ho d0 a c k (hoo.trans h7) h9.symm hk hk0
        · rw [hc] at h10; injection h10 with h10; subst h10
          have := merge_dflt h9 hk hk0
          cases h11 : Dict.get? d0 a with
          | none => rw [h11] at this; simp [casesOf] at this
          | some c0 =>
            rw [h11] at this
            exact ho d0 a c0 k (hoo.trans h7) h11 (by simpa [casesOf] using this) hk0
  | .assert c l =>
    simp only [StaticS] at hs
    rw [procS] at h
    obtain ⟨⟨v, env1⟩, h1, h2⟩ := (bind_ok_iff ..).1 h
    obtain ⟨rfl, hr⟩ := procV_ok hP c hs hI h1
    injection h2 with h2; subst h2
    exact ho

theorem onlyInit_steps {P : PyOps V} (hP : P.Lawful) {N : Names} {ν : Store V} {ego T out : String} :
    ∀ (ss : List (Stmt V)) (σ : Store V), ss.all (notTop out) = true → ∀ {env env' : Env V}, StaticSs N ss →
    noTwins P.zero env ss = true → Inv P N env ν σ →
    OnlyInit ego T out env → procSs P.zero env ss = .ok env' → OnlyInit ego T out env' := by
  intro ss
  induction ss with
  | nil => intro σ _ env env' _ _ _ ho h; rw [procSs] at h; injection h with h; subst h; exact ho
  | cons s ss ih =>
    intro σ ht env env' hs hn hI ho h
    simp only [List.all_cons, Bool.and_eq_true] at ht
    simp only [StaticSs] at hs
    rw [procSs] at h
    obtain ⟨env1, h1, h2⟩ := (bind_ok_iff ..).1 h
    rw [noTwins, h1] at hn
    simp only [Bool.and_eq_true] at hn
    have s1 := procS_ok hP s hs.1 hn.1 hI h1
    exact ih (run P σ s) ht.2 hs.2 hn.2 s1.inv (onlyInit_step hP ht.1 hs.1 hI ho h1) h2

/-! ### compilation -/

omit [DecidableEq V] in
theorem compile_ok {e e' : Expr V} (h : compile e = .ok e') : e' = e ∧ hasOpaque e = false := by
  unfold compile at h
  split at h
  · cases h
  · rename_i ho; injection h with h; exact ⟨h.symm, by simpa using ho⟩

omit [DecidableEq V] in
theorem evalAll_ofList (P : PyOps V) (σ : Store V) (es : List (Expr V)) :
    evalAll P σ (.ofList es) = es.all (fun e => P.truth (eval P σ e)) := by
  induction es with
  | nil => rfl
  | cons e es ih => simp [Exprs.ofList, evalAll, ih]

omit [DecidableEq V] in
theorem mergeConds_truth {P : PyOps V} (hP : P.Lawful) {tt : V} (htt : P.truth tt = true) (σ : Store V) (es : List (Expr V)) :
    P.truth (eval P σ (mergeConds tt es)) = es.all (fun e => P.truth (eval P σ e)) := by
  match es with
  | [] => simpa [mergeConds, eval] using htt
  | [c] => simp [mergeConds]
  | c :: c' :: cs =>
    simp only [mergeConds, eval]
    rw [evalAnd_truth hP, evalAll_ofList]

omit [DecidableEq V] in
theorem hasOpaques_ofList (es : List (Expr V)) : hasOpaques (.ofList es) = es.any hasOpaque := by
  induction es with
  | nil => rfl
  | cons e es ih => simp [Exprs.ofList, hasOpaques, ih]

omit [DecidableEq V] in
theorem mergeConds_opq (tt : V) (es : List (Expr V)) : hasOpaque (mergeConds tt es) = es.any hasOpaque := by
  match es with
  | [] => rfl
  | [c] => simp [mergeConds]
  | c :: c' :: cs =>
    simp only [mergeConds, hasOpaque]
    rw [hasOpaques_ofList]

/-- What the extraction gives: the final environment, the paths of every attribute, the compiled asserts. -/
theorem extract_ok {zero tt : V} {env : Env V} {params : List (String × Option String)} {body : List (Stmt V)} {out : String}
    {ir : IR V} (h : extract zero tt env params body out = .ok ir) :
    ∃ env' d, procSs zero (addParams { env with asserts := [] } params) body = .ok env' ∧ env'.lookup out = some (.obj d) ∧
      (∀ a cs k, Dict.get? d a = some (.cond cs) → k ∈ cs → k.conds ≠ [] →
        hasOpaque (mergeConds tt k.conds) = false ∧ hasOpaque k.val = false ∧
        (⟨mergeConds tt k.conds, a, k.val⟩ : Path V) ∈ ir.paths) ∧
      (∀ x ∈ env'.asserts, hasOpaque x.cond = false ∧ hasOpaque (mergeConds tt x.pre) = false) ∧
      (∀ x ∈ env'.asserts, ∃ y ∈ ir.asserts, y.cond = x.cond ∧ y.pre = mergeConds tt x.pre) ∧
      (∀ y ∈ ir.asserts, ∃ x ∈ env'.asserts, y.cond = x.cond ∧ y.pre = mergeConds tt x.pre) := by
  unfold extract at h
  obtain ⟨env', h1, h2⟩ := (bind_ok_iff ..).1 h
  obtain ⟨as, h3, h4⟩ := (bind_ok_iff ..).1 h2
  have hasserts : ∀ (xi : PAssert V × Nat) (ai : AssertIR V), assertIR tt xi.2 xi.1 = .ok ai → hasOpaque xi.1.cond = false ∧
      hasOpaque (mergeConds tt xi.1.pre) = false ∧ ai.cond = xi.1.cond ∧ ai.pre = mergeConds tt xi.1.pre := by
    intro xi ai hx
    unfold assertIR at hx
    obtain ⟨c, hc, hx⟩ := (bind_ok_iff ..).1 hx
    obtain ⟨p, hp, hx⟩ := (bind_ok_iff ..).1 hx
    obtain ⟨rfl, c2⟩ := compile_ok hc
    obtain ⟨rfl, p2⟩ := compile_ok hp
    injection hx with hx; subst hx
    exact ⟨c2, p2, rfl, rfl⟩
  have hf := (mapM_ok_iff ..).1 h3
  split at h4
  · rename_i d hd
    obtain ⟨ps, h5, h6⟩ := (bind_ok_iff ..).1 h4
    injection h6 with h6; subst h6
    refine ⟨env', d, h1, hd, ?_, ?_, ?_, ?_⟩
    · intro a cs k hc hk hk0
      have hm := Dict.mem_of_get? hc
      obtain ⟨pl, hpl, hpl2⟩ := forall₂_mem_left ((mapM_ok_iff ..).1 h5) hm
      simp only [pathsOf] at hpl2
      obtain ⟨pth, hp1, hp2⟩ := forall₂_mem_left ((mapM_ok_iff ..).1 hpl2)
        (show k ∈ cs.filter (fun c => !c.conds.isEmpty) by simp [hk, hk0])
      obtain ⟨g, hg, hp2⟩ := (bind_ok_iff ..).1 hp2
      obtain ⟨v, hv, hp2⟩ := (bind_ok_iff ..).1 hp2
      obtain ⟨rfl, g2⟩ := compile_ok hg
      obtain ⟨rfl, v2⟩ := compile_ok hv
      injection hp2 with hp2; subst hp2
      exact ⟨g2, v2, List.mem_flatten.2 ⟨pl, hpl, hp1⟩⟩
    · intro x hx
      obtain ⟨i, hi⟩ := List.mem_iff_getElem?.1 hx
      obtain ⟨ai, -, h7⟩ := forall₂_mem_left hf (show (x, i) ∈ env'.asserts.zipIdx from List.mem_zipIdx_iff_getElem?.2 hi)
      exact ⟨(hasserts _ _ h7).1, (hasserts _ _ h7).2.1⟩
    · intro x hx
      obtain ⟨i, hi⟩ := List.mem_iff_getElem?.1 hx
      obtain ⟨ai, h8, h7⟩ := forall₂_mem_left hf (show (x, i) ∈ env'.asserts.zipIdx from List.mem_zipIdx_iff_getElem?.2 hi)
      exact ⟨ai, h8, (hasserts _ _ h7).2.2⟩
    · intro y hy
      obtain ⟨⟨x, i⟩, h8, h7⟩ := forall₂_mem_right hf hy
      exact ⟨x, List.mem_iff_getElem?.2 ⟨i, List.mem_zipIdx_iff_getElem?.1 h8⟩, (hasserts _ _ h7).2.2⟩
  · cases h4

/-! ### the decision logic as a whole -/

/-- Everything about one decision logic. -/
theorem logic_ok {P : PyOps V} (hP : P.Lawful) {tt : V} {ν : Store V} {N : Names} {env : Env V}
    {D : Logic V} {attrs : List String} (hD : D.WellNamed P ν N env attrs)
    (hn : noTwins P.zero (addParams { env with asserts := [] } D.params) D.body = true) {ir : IR V}
    (h : extract P.zero tt env D.params D.body D.out = .ok ir) (args : List V) :
    ∃ env1 env2 d, Step P (N.params (D.params.map Prod.fst)) (D.start ν args) env1 env2
        (runs P (D.start ν args) D.body) (failss P (D.start ν args) D.body) ∧
      env1.asserts = [] ∧ env2.lookup D.out = some (.obj d) ∧
      (∀ a ∈ attrs, ∃ d0, env1.lookup D.out = some (.obj d0) ∧ Dict.get? d0 a = some (initCell D.ego D.cls a)) ∧
      (D.rest.all (notTop D.out) = true → OnlyInit D.ego D.cls D.out env2) ∧
      (∀ a cs k, Dict.get? d a = some (.cond cs) → k ∈ cs → k.conds ≠ [] →
        hasOpaque (mergeConds tt k.conds) = false ∧ hasOpaque k.val = false ∧
        (⟨mergeConds tt k.conds, a, k.val⟩ : Path V) ∈ ir.paths) ∧
      (∀ x ∈ env2.asserts, hasOpaque x.cond = false ∧ hasOpaque (mergeConds tt x.pre) = false) ∧
      (∀ x ∈ env2.asserts, ∃ y ∈ ir.asserts, y.cond = x.cond ∧ y.pre = mergeConds tt x.pre) ∧
      (∀ y ∈ ir.asserts, ∃ x ∈ env2.asserts, y.cond = x.cond ∧ y.pre = mergeConds tt x.pre) := by
  obtain ⟨env2, d, h1, h2, h3, h4, h5, h6⟩ := extract_ok h
  have hM := module_ok hP hD.module
  have hI0 := (hM.inv (D.start ν args) (fun n hn => updMany_out _ _ _ _ (fun hm => hn (hD.params.fresh n hm)))).params hD.params
  rw [Logic.body, procSs] at h1
  obtain ⟨env1, h7, h8⟩ := (bind_ok_iff ..).1 h1
  rw [Logic.body, noTwins, h7] at hn
  simp only [Bool.and_eq_true] at hn
  have hegom : D.ego ∈ D.params.map Prod.fst := List.mem_map_of_mem hD.ego
  have hego : (addParams { env with asserts := [] } D.params).lookup D.ego = some (.cell (.ast (.hole D.ego (some D.cls)))) := by
    obtain ⟨t, ht, hl⟩ := addParams_in D.params { env with asserts := [] } D.ego hegom
    have : t = some D.cls := by
      have hnd := hD.params.nodup
      have g1 := Dict.get?_of_mem (d := D.params) hnd ht
      have g2 := Dict.get?_of_mem (d := D.params) hnd hD.ego
      rw [g1] at g2; injection g2
    subst this; exact hl
  have hdefs := addParams_defs D.params { env with asserts := [] }
  have hmode : (addParams { env with asserts := [] } D.params).modeDefs.contains D.ego = false := by
    rw [hdefs.2.2, Bool.eq_false_iff]
    intro hc
    exact (hD.params.fresh _ hegom).1 ((hM.inv ν (fun _ _ => rfl)).modes _ hc).1
  have houtp : D.out ∉ D.params.map Prod.fst := fun hm => hD.out.1 (.inl hm)
  have hnone : (addParams { env with asserts := [] } D.params).lookup D.out = none := by
    rw [addParams_out _ _ _ houtp]
    cases hl : env.lookup D.out with
    | none => exact hl
    | some sv =>
      rcases hM.start.look _ sv hl with ⟨t, -, ha⟩ | ⟨j, bs, l, hl', -⟩
      · exact absurd (Or.inr ha) hD.out.1
      · have := hD.out.2.2
        rw [show (N.params (D.params.map Prod.fst)).L D.out = N.L D.out from rfl, hl'] at this; cases this
  obtain ⟨f1, f2, f3, f4⟩ := first_ok (N := N.params (D.params.map Prod.fst)) hI0 (.inr hD.copy) hego
    (fun hb => (hD.params.fresh _ hegom).2.1 hb) hmode (by rw [hdefs.2.1]; exact hD.state) hD.out hnone h7
  have st := procSs_ok hP D.rest hD.static hn.2 f1 h8
  have hfail : failss P (D.start ν args) D.body =
      failss P (run P (D.start ν args) (.assign D.out (deepcopy D.ego))) D.rest := by
    rw [Logic.body, failss]; simp [fails]
  have hruns : runs P (D.start ν args) D.body = runs P (run P (D.start ν args) (.assign D.out (deepcopy D.ego))) D.rest := by
    rw [Logic.body, runs]
  refine ⟨env1, env2, d, ?_, ?_, h2, ?_, ?_, h3, h4, h5, h6⟩
  · rw [hfail, hruns]; exact st
  · rw [f2, hdefs.1]
  · intro a ha
    rcases f3 with ⟨-, f3⟩ | ⟨d0, f3, -, f5⟩
    · rw [f3] at ha; cases ha
    · exact ⟨d0, f3, f5 a ha⟩
  · intro ht
    refine onlyInit_steps hP D.rest _ ht hD.static hn.2 f1 ?_ h8
    intro d' a c k hd' hc hk hk0
    rcases f3 with ⟨f3, -⟩ | ⟨d0, f3, f5, -⟩
    · rw [f3] at hd'; cases hd'
    · rw [f3] at hd'; cases hd'
      have := f5 a c hc
      subst this
      simp only [initCell, Cell.asCases, List.mem_singleton] at hk
      subst hk; rfl

end

end Verif.Py
