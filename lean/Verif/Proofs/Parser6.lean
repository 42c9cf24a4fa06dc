import Verif.Proofs.Parser5

/-! Modules satisfy the invariant; the extracted paths and asserts. -/

set_option autoImplicit false

namespace Verif.Py

variable {V : Type}

/-! ### parameters -/

/-- parameters become holes -/
def addParams (env : Env V) (ps : List (String × Option String)) : Env V :=
  ps.foldl (fun (e : Env V) p => e.addHole p.1 p.2) env

theorem addParams_out (ps : List (String × Option String)) : ∀ (env : Env V) (k : String), k ∉ ps.map Prod.fst →
    (addParams env ps).lookup k = env.lookup k := by
  induction ps with
  | nil => intro env k _; rfl
  | cons p ps ih =>
    intro env k hk
    simp only [List.map_cons, List.mem_cons, not_or] at hk
    show (addParams (env.addHole p.1 p.2) ps).lookup k = _
    rw [ih _ k hk.2, lookup_addHole, if_neg (fun e => hk.1 e.symm)]

theorem addParams_in (ps : List (String × Option String)) : ∀ (env : Env V) (k : String), k ∈ ps.map Prod.fst →
    ∃ t, (k, t) ∈ ps ∧ (addParams env ps).lookup k = some (.cell (.ast (.hole k t))) := by
  induction ps with
  | nil => intro env k h; cases h
  | cons p ps ih =>
    intro env k hk
    show ∃ t, _ ∧ (addParams (env.addHole p.1 p.2) ps).lookup k = _
    by_cases h : k ∈ ps.map Prod.fst
    · obtain ⟨t, h1, h2⟩ := ih (env.addHole p.1 p.2) k h
      exact ⟨t, by simp [h1], h2⟩
    · simp only [List.map_cons, List.mem_cons, h, or_false] at hk
      subst hk
      refine ⟨p.2, by simp, ?_⟩
      rw [addParams_out _ _ _ h, lookup_addHole, if_pos rfl]

theorem addParams_defs (ps : List (String × Option String)) : ∀ (env : Env V),
    (addParams env ps).asserts = env.asserts ∧ (addParams env ps).stateDefs = env.stateDefs ∧
    (addParams env ps).modeDefs = env.modeDefs := by
  induction ps with
  | nil => intro env; exact ⟨rfl, rfl, rfl⟩
  | cons p ps ih => intro env; exact ih (env.addHole p.1 p.2)

theorem lookup_popTo (env env' : Env V) (k : String) :
    (env.popTo env').lookup k = if (env.lookup k).isSome then env'.lookup k else none := by
  unfold Env.popTo Env.lookup
  simp only
  generalize env'.vars = vs
  induction vs with
  | nil => simp
  | cons kv vs ih =>
    obtain ⟨k', v⟩ := kv
    rw [List.filter_cons, Dict.get?_cons]
    by_cases hm : Dict.mem env.vars k' = true
    · rw [if_pos (by simpa using hm), Dict.get?_cons]
      by_cases hk : k' = k
      · subst hk; rw [if_pos rfl, if_pos rfl, if_pos ((Dict.mem_iff ..).1 hm)]
      · rw [if_neg hk, if_neg hk]; exact ih
    · rw [if_neg (by simpa using hm)]
      by_cases hk : k' = k
      · subst hk
        rw [Dict.mem_iff] at hm
        rw [ih, if_neg hm, if_neg hm]
      · rw [if_neg hk]; exact ih

theorem updMany_out (ps : List String) : ∀ (ν : Store V) (vs : List V) (n : String), n ∉ ps → updMany ν ps vs n = ν n := by
  induction ps with
  | nil => intro ν vs n _; simp [updMany]
  | cons p ps ih =>
    intro ν vs n hn
    simp only [List.mem_cons, not_or] at hn
    cases vs with
    | nil => simp [updMany]
    | cons v vs => rw [updMany, ih _ _ _ hn.2, upd_ne _ _ _ _ hn.1]

theorem Inv.params {P : PyOps V} {N : Names} {env : Env V} {ν : Store V} (hI : Inv P N env ν ν)
    {ps : List (String × Option String)} (hp : ParamNames N (ps.map Prod.fst)) :
    Inv P (N.params (ps.map Prod.fst)) (addParams { env with asserts := [] } ps) ν ν := by
  have hA : ∀ n, N.A n → n ∉ ps.map Prod.fst := fun n h hm => (hp.fresh n hm).1 h
  have hB : ∀ n, N.B n → n ∉ ps.map Prod.fst := fun n h hm => (hp.fresh n hm).2.1 h
  have hout : ∀ k, k ∉ ps.map Prod.fst → (addParams { env with asserts := [] } ps).lookup k = env.lookup k :=
    fun k hk => addParams_out ps _ k hk
  have hdefs := addParams_defs ps { env with asserts := [] }
  constructor
  · rintro n (hn | hn)
    · obtain ⟨t, -, h⟩ := addParams_in ps { env with asserts := [] } n hn
      exact ⟨⟨t, h⟩, rfl⟩
    · obtain ⟨⟨t, h1⟩, h2⟩ := hI.input n hn
      exact ⟨⟨t, by rw [hout n (hA n hn)]; exact h1⟩, h2⟩
  · intro n hn
    rw [hout n (hB n hn)]; exact hI.fresh n hn
  · intro k c hk
    by_cases hm : k ∈ ps.map Prod.fst
    · obtain ⟨t, -, h⟩ := addParams_in ps { env with asserts := [] } k hm
      rw [h] at hk; injection hk with hk; injection hk with hk; subst hk
      refine ⟨(cellRel_ast ..).2 (.inr rfl), fun n hn => ?_⟩
      rw [occCell_ast] at hn
      simp only [occurs, beq_iff_eq] at hn; subst hn
      exact fun hb => hB _ hb hm
    · rw [hout k hm] at hk; exact hI.cells k c hk
  · intro k d a c hk hc
    by_cases hm : k ∈ ps.map Prod.fst
    · obtain ⟨t, -, h⟩ := addParams_in ps { env with asserts := [] } k hm
      rw [h] at hk; injection hk with hk; cases hk
    · rw [hout k hm] at hk; exact hI.objs k d a c hk hc
  · intro f k bs hf
    obtain ⟨l, h1, h2⟩ := hI.lams f k bs hf
    have hm : f ∉ ps.map Prod.fst := fun hm => by
      have := (hp.fresh f hm).2.2
      rw [show N.L f = some (k, bs) from hf] at this; cases this
    exact ⟨l, by rw [hout f hm]; exact h1, h2⟩
  · intro n hn
    rw [hdefs.2.2] at hn
    obtain ⟨h1, h2⟩ := hI.modes n hn
    exact ⟨.inr h1, h2⟩
  · rintro (hc | hc)
    · exact absurd hc hp.copy
    · exact hI.copy hc
  · exact hI.copyB

theorem Start.params {N : Names} {env : Env V} (hS : Start N.A N env) {ps : List (String × Option String)}
    (_hp : ParamNames N (ps.map Prod.fst)) :
    Start N.A (N.params (ps.map Prod.fst)) (addParams { env with asserts := [] } ps) := by
  refine ⟨fun n hn => .inr hn, fun k sv hk => ?_⟩
  by_cases hm : k ∈ ps.map Prod.fst
  · obtain ⟨t, -, h⟩ := addParams_in ps { env with asserts := [] } k hm
    rw [h] at hk; injection hk with hk
    exact .inl ⟨t, hk.symm, .inl hm⟩
  · rw [addParams_out ps _ k hm] at hk
    exact (hS.look k sv hk).imp (fun ⟨t, h1, h2⟩ => ⟨t, h1, .inr h2⟩) id

/-- What a module guarantees. -/
structure ModuleOk (P : PyOps V) (ν : Store V) (N : Names) (env : Env V) : Prop where
  start : Start N.A N env
  sep : ∀ n, N.A n → ¬ N.B n ∧ N.L n = none
  inv : ∀ ν', (∀ n, ¬ N.Local n → ν' n = ν n) → Inv P N env ν' ν'

theorem module_ok {P : PyOps V} (hP : P.Lawful) {ν : Store V} {N : Names} {env : Env V} (h : Module P ν N env) :
    ModuleOk P ν N env := by
  induction h with
  | base N env holes inputs disjoint nohelper modes copy copyB =>
    refine ⟨⟨fun _ h => h, fun k sv hk => ?_⟩, fun n hn => ⟨disjoint n hn, nohelper n⟩, fun ν' hν' => ?_⟩
    · obtain ⟨h1, t, h2⟩ := holes k sv hk
      exact .inl ⟨t, h2, h1⟩
    · have hA : ∀ n, N.A n → ν' n = ν n := fun n hn => hν' n (fun hl => hl.1 hn)
      constructor
      · intro n hn; exact ⟨inputs n hn, rfl⟩
      · intro n hn
        cases hl : env.lookup n with
        | none => rfl
        | some sv => exact absurd hn (disjoint n (holes n sv hl).1)
      · intro k c hk
        obtain ⟨h1, t, h2⟩ := holes k _ hk
        injection h2 with h2; subst h2
        refine ⟨(cellRel_ast ..).2 (.inr rfl), fun n hn => ?_⟩
        rw [occCell_ast] at hn
        simp only [occurs, beq_iff_eq] at hn; subst hn
        exact disjoint _ h1
      · intro k d a c hk
        obtain ⟨h1, t, h2⟩ := holes k _ hk
        cases h2
      · intro f k bs hf; rw [nohelper] at hf; cases hf
      · intro n hn
        obtain ⟨h1, h2⟩ := modes n hn
        exact ⟨h1, fun a => by rw [hA n h1]; exact h2 a⟩
      · intro hc; rw [hA _ hc]; exact copy hc
      · exact copyB
  | helper N env env' f ps body l bs prev name params static bound boundB called plain parsed meaning ih =>
    -- the closure
    have hps : ∀ vs, vs.length = ps.length → ∀ n, ¬ N.Local n → updMany ν (ps.map Prod.fst) vs n = ν n := by
      intro vs _ n hn
      exact updMany_out _ _ _ _ (fun hm => hn (params.fresh n hm))
    have parsed' := parsed
    unfold lamFromAst at parsed'
    obtain ⟨⟨v, env2⟩, h1, h2⟩ := (bind_ok_iff ..).1 parsed'
    obtain ⟨rfl, rfl⟩ := pair_ok h2
    change procV P.zero (addParams { env with asserts := [] } ps) body = .ok (v, env2) at h1
    have hI0 := (ih.inv ν (fun _ _ => rfl)).params params
    obtain ⟨henv, hr⟩ := procV_ok hP body static hI0 h1
    subst henv
    obtain ⟨-, hsh⟩ := procV_shape hP body static hI0 (ih.start.params params) h1
    have hbind : ∀ y, binds y (toExpr v) = true → y ∈ bs := by
      intro y hy
      rcases hsh.binders y hy with h | ⟨g, k, bs', a, b, c⟩
      · exact bound y h
      · exact called g k bs' a b y c
    have hraw : ∀ n, rawOcc n (toExpr v) = true → N.A n ∨ n ∈ bs := by
      intro n hn
      rcases rawOcc_imp n _ hn with h | h
      · rcases hsh.free n h with h | h
        · rcases hsh.raw n hn with h3 | h3 | ⟨g, k, bs', a, b, c⟩
          · rw [plain n h] at h3; cases h3
          · exact .inl h3
          · exact .inr (called g k bs' a b n c)
        · exact .inl h
      · exact .inr (hbind n h)
    have hshape : LamShape N.A bs
        { params := ps.map Prod.fst, body := toExpr v, asserts := (addParams { env with asserts := [] } ps).asserts } :=
      ⟨hbind, hsh.free, hraw⟩
    -- looking up in the environment afterwards
    have hlook : ∀ k, (env.popTo (addParams { env with asserts := [] } ps)).lookup k = env.lookup k := by
      intro k
      rw [lookup_popTo]
      by_cases hs : (env.lookup k).isSome = true
      · rw [if_pos hs, addParams_out]
        · rfl
        · intro hm
          obtain ⟨sv, hsv⟩ := Option.isSome_iff_exists.1 hs
          have hl := params.fresh k hm
          rcases ih.start.look k sv hsv with ⟨t, -, h⟩ | ⟨j, bs', l', h, -⟩
          · exact hl.1 h
          · rw [hl.2.2] at h; cases h
      · rw [if_neg hs]
        exact (by simpa using hs : env.lookup k = none).symm
    have hset : ∀ k sv, ((env.popTo (addParams { env with asserts := [] } ps)).set f sv).lookup k =
        if f = k then some sv else env.lookup k := by
      intro k sv; rw [lookup_set, hlook]
    refine ⟨⟨fun _ h => h, fun k sv hk => ?_⟩, fun n hn => ⟨(ih.sep n hn).1, ?_⟩, fun ν' hν' => ?_⟩
    · rw [hset] at hk
      split at hk
      · rename_i e; subst e
        injection hk with hk; subst hk
        exact .inr ⟨ps.length, bs, _, by simp [Names.helper], rfl, hshape⟩
      · rename_i e
        rcases ih.start.look k sv hk with h | ⟨j, bs', l', h, h'⟩
        · exact .inl h
        · exact .inr ⟨j, bs', l', by simp only [Names.helper]; rw [if_neg (fun h => e h.symm)]; exact h, h'⟩
    · simp only [Names.helper]
      rw [if_neg (by rintro rfl; exact name.1 hn)]
      exact (ih.sep n hn).2
    · have hloc : ∀ n, ¬ N.Local n → ν' n = ν n := by
        intro n hn
        refine hν' n (fun hl => hn ⟨hl.1, hl.2.1, ?_⟩)
        have := hl.2.2
        simp only [Names.helper] at this
        split at this
        · cases this
        · exact this
      have hI := ih.inv ν' hloc
      have hff : ν' f = ν f := hν' f (fun hl => by have := hl.2.2; simp [Names.helper] at this)
      constructor
      · intro n hn
        obtain ⟨h3, h4⟩ := hI.input n hn
        refine ⟨?_, h4⟩
        rw [hset, if_neg]
        · exact h3
        · rintro rfl; exact name.1 hn
      · intro n hn
        rw [hset, if_neg]
        · exact hI.fresh n hn
        · rintro rfl; exact name.2.1 hn
      · intro k c hk
        rw [hset] at hk
        split at hk
        · injection hk with hk; cases hk
        · exact hI.cells k c hk
      · intro k d a c hk
        rw [hset] at hk
        split at hk
        · injection hk with hk; cases hk
        · exact hI.objs k d a c hk
      · intro g k bs' hg
        simp only [Names.helper] at hg
        by_cases hgf : g = f
        · subst hgf
          rw [if_pos rfl] at hg
          injection hg with hg; injection hg with hg1 hg2; subst hg1; subst hg2
          refine ⟨_, by rw [hset, if_pos rfl], ?_⟩
          constructor
          · exact (addParams_defs ps _).1
          · simp
          · exact hbind
          · intro p hp
            have hpl := params.fresh p hp
            refine ⟨fun hb => hpl.2.1 (boundB p hb), ?_⟩
            rw [Bool.eq_false_iff]
            intro hh
            rcases hraw p hh with h | h
            · exact hpl.1 h
            · exact hpl.2.1 (boundB p h)
          · intro n hn
            rcases hsh.free n hn with h | h
            · exact .inl h
            · exact .inr (ih.sep n h).1
          · -- meaning
            cases hop : hasOpaque (toExpr v) with
            | true => exact .inl rfl
            | false =>
              right
              intro vs hvs
              rw [hff, meaning vs hvs]
              have hIv := (ih.inv _ (hps vs hvs)).params params
              have hrv := (procV_ok hP body static hIv h1).2.toExpr.1.resolve_left (by simp [hop])
              rw [← hrv]
              refine eval_congr P _ _ _ (fun n hn => updMany_congr _ _ (by simp [hvs]) (fun hnp => ?_))
              rcases hsh.free n hn with h | h
              · exact absurd h hnp
              · exact (hloc n (fun hl => hl.1 h)).symm
        · rw [if_neg hgf] at hg
          obtain ⟨l', h3, h4⟩ := hI.lams g k bs' hg
          exact ⟨l', by rw [hset, if_neg (fun e => hgf e.symm)]; exact h3, h4⟩
      · exact hI.modes
      · exact hI.copy
      · exact hI.copyB

end Verif.Py
