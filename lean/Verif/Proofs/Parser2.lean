import Verif.Proofs.Parser1

/-! `proc` on expressions agrees with Python's evaluation. -/

set_option autoImplicit false

namespace Verif.Py

variable {V : Type}

/-- A case that cannot be compiled. -/
def CaseOpq (c : Case V) : Prop := (∃ k ∈ c.conds, hasOpaque k = true) ∨ hasOpaque c.val = true

/-- The conditions of the case hold and it has the value `v`. -/
def CaseHolds (P : PyOps V) (ν : Store V) (c : Case V) (v : V) : Prop :=
  (∀ k ∈ c.conds, P.truth (eval P ν k) = true) ∧ eval P ν c.val = v

/-- The symbolic value has an unconditional case. -/
def Dflt (c : Cell V) : Prop := ∃ k ∈ c.asCases, k.conds = []

/-- The symbolic value covers the value `v` (if it has an unconditional case; a variable that is assigned in one branch only and
does not exist before has none). -/
def CellRel (P : PyOps V) (ν : Store V) (c : Cell V) (v : V) : Prop :=
  Dflt c → ∃ k ∈ c.asCases, CaseOpq k ∨ CaseHolds P ν k v

/-- `n` occurs free in the symbolic value. -/
def occCell (n : String) (c : Cell V) : Prop :=
  ∃ k ∈ c.asCases, (∃ e ∈ k.conds, occurs n e = true) ∨ occurs n k.val = true

theorem cellRel_ast (P : PyOps V) (ν : Store V) (e : Expr V) (v : V) :
    CellRel P ν (.ast e) v ↔ hasOpaque e = true ∨ eval P ν e = v := by
  simp [CellRel, Cell.asCases, CaseOpq, CaseHolds, Dflt]

theorem occCell_ast (n : String) (e : Expr V) : occCell n (.ast e) ↔ occurs n e = true := by
  simp [occCell, Cell.asCases]

/-- What is known about a helper function. -/
structure LamRel (P : PyOps V) (ν : Store V) (B : String → Prop) (fv : V) (k : Nat) (bs : List String) (l : Lam V) : Prop where
  noAsserts : l.asserts = []
  arity : l.params.length = k
  binders : ∀ y, binds y l.body = true → y ∈ bs
  params : ∀ p ∈ l.params, p ∉ bs ∧ rawOcc p l.body = false
  scope : ∀ n, occurs n l.body = true → n ∈ l.params ∨ ¬ B n
  meaning : hasOpaque l.body = true ∨ ∀ vs, vs.length = k → P.call fv "" vs = eval P (updMany ν l.params vs) l.body

/-- The symbolic environment `env` over inputs `ν` stands for the store `σ`. -/
structure Inv (P : PyOps V) (N : Names) (env : Env V) (ν σ : Store V) : Prop where
  input : ∀ n, N.A n → (∃ typ, env.lookup n = some (.cell (.ast (.hole n typ)))) ∧ σ n = ν n
  fresh : ∀ n, N.B n → env.lookup n = none
  cells : ∀ k c, env.lookup k = some (.cell c) → CellRel P ν c (σ k) ∧ ∀ n, occCell n c → ¬ N.B n
  objs : ∀ k d a c, env.lookup k = some (.obj d) → Dict.get? d a = some c →
    CellRel P ν c (P.getattr (σ k) a) ∧ ∀ n, occCell n c → ¬ N.B n
  lams : ∀ f k bs, N.L f = some (k, bs) → ∃ l, env.lookup f = some (.lam l) ∧ LamRel P ν N.B (σ f) k bs l
  modes : ∀ n, env.modeDefs.contains n = true → N.A n ∧ ∀ a, P.getattr (ν n) a = P.str a
  copy : N.A "copy" → ∀ v, P.call (ν "copy") "deepcopy" [v] = v
  copyB : ¬ N.B "copy"

/-- What `proc` must return for an expression of value `v`. -/
structure Res (P : PyOps V) (B : String → Prop) (ν : Store V) (sv : Option (SV V)) (v : V) : Prop where
  cell : ∀ c, sv = some (.cell c) → CellRel P ν c v ∧ ∀ n, occCell n c → ¬ B n
  obj : ∀ d a c, sv = some (.obj d) → Dict.get? d a = some c →
    CellRel P ν c (P.getattr v a) ∧ ∀ n, occCell n c → ¬ B n

theorem Res.ast {P : PyOps V} {B : String → Prop} {ν : Store V} {e : Expr V} {v : V}
    (h1 : hasOpaque e = true ∨ eval P ν e = v) (h2 : ∀ n, occurs n e = true → ¬ B n) :
    Res P B ν (some (.cell (.ast e))) v := by
  constructor
  · intro c hc
    injection hc with hc; injection hc with hc
    subst hc
    exact ⟨(cellRel_ast ..).2 h1, fun n hn => h2 n ((occCell_ast ..).1 hn)⟩
  · intro d a c hc; injection hc with hc; cases hc

theorem Res.toExpr {P : PyOps V} {B : String → Prop} {ν : Store V} {sv : Option (SV V)} {v : V} (h : Res P B ν sv v) :
    (hasOpaque (toExpr sv) = true ∨ eval P ν (toExpr sv) = v) ∧ ∀ n, occurs n (toExpr sv) = true → ¬ B n := by
  match sv with
  | none => exact ⟨.inl rfl, by simp [Py.toExpr, occurs]⟩
  | some (.obj _) => exact ⟨.inl rfl, by simp [Py.toExpr, occurs]⟩
  | some (.lam _) => exact ⟨.inl rfl, by simp [Py.toExpr, occurs]⟩
  | some (.cell (.cond _)) => exact ⟨.inl rfl, by simp [Py.toExpr, occurs]⟩
  | some (.cell (.ast e)) =>
    obtain ⟨h1, h2⟩ := h.cell _ rfl
    exact ⟨(cellRel_ast ..).1 h1, fun n hn => h2 n ((occCell_ast ..).2 hn)⟩

theorem caseHolds_congr {P : PyOps V} {ν τ : Store V} {c : Case V} {v : V}
    (h : ∀ n, ((∃ e ∈ c.conds, occurs n e = true) ∨ occurs n c.val = true) → ν n = τ n)
    (hc : CaseHolds P ν c v) : CaseHolds P τ c v := by
  constructor
  · intro k hk
    rw [← eval_congr P ν τ k (fun n hn => h n (.inl ⟨k, hk, hn⟩))]
    exact hc.1 k hk
  · rw [← eval_congr P ν τ c.val (fun n hn => h n (.inr hn))]; exact hc.2

theorem cellRel_congr {P : PyOps V} {ν τ : Store V} {c : Cell V} {v : V} (h : ∀ n, occCell n c → ν n = τ n)
    (hc : CellRel P ν c v) : CellRel P τ c v := by
  intro hd
  obtain ⟨k, hk, h1⟩ := hc hd
  refine ⟨k, hk, h1.imp id (caseHolds_congr (fun n hn => h n ⟨k, hk, hn⟩))⟩

/-! ### under a binder -/

theorem lookup_addHole (env : Env V) (x : String) (t : Option String) (k : String) :
    (env.addHole x t).lookup k = if x = k then some (.cell (.ast (.hole x t))) else env.lookup k := by
  unfold Env.addHole Env.lookup Env.set
  exact Dict.get?_set ..

theorem updMany_congr {σ τ : Store V} {n : String} : ∀ (ps : List String) (vs : List V), ps.length = vs.length →
    (n ∉ ps → σ n = τ n) → updMany σ ps vs n = updMany τ ps vs n := by
  intro ps
  induction ps generalizing σ τ with
  | nil => intro vs _ h; simpa [updMany] using h
  | cons p ps ih =>
    intro vs hl h
    cases vs with
    | nil => simp at hl
    | cons v vs =>
      simp only [updMany]
      refine ih vs (by simpa using hl) (fun hn => ?_)
      refine upd_agree v (fun hne => h (by simp [hne, hn]))

theorem Inv.under {P : PyOps V} {N : Names} {env : Env V} {ν σ : Store V} (h : Inv P N env ν σ) {x : String} (hx : N.B x)
    (v : V) : Inv P (N.under x) (env.addHole x none) (upd ν x v) (upd σ x v) := by
  have hfx := h.fresh x hx
  have hne : ∀ k sv, env.lookup k = some sv → k ≠ x := by rintro k sv hk rfl; rw [hfx] at hk; cases hk
  constructor
  · rintro n (rfl | hn)
    · exact ⟨⟨none, by rw [lookup_addHole]; simp⟩, by simp [upd]⟩
    · obtain ⟨⟨t, h1⟩, h2⟩ := h.input n hn
      have := hne n _ h1
      refine ⟨⟨t, ?_⟩, ?_⟩
      · rw [lookup_addHole, if_neg (fun e => this e.symm)]; exact h1
      · rw [upd_ne _ _ _ _ this, upd_ne _ _ _ _ this]; exact h2
  · rintro n ⟨hn, hb⟩
    rw [lookup_addHole, if_neg (fun e => hn e.symm)]; exact h.fresh n hb
  · intro k c hk
    rw [lookup_addHole] at hk
    by_cases hxk : x = k
    · subst hxk
      simp only [if_true] at hk
      injection hk with hk; injection hk with hk; subst hk
      refine ⟨(cellRel_ast ..).2 (.inr (by simp [eval, upd])), ?_⟩
      rintro n hn ⟨h1, -⟩
      have := (occCell_ast ..).1 hn
      simp [occurs] at this
      exact h1 this.symm
    · simp only [hxk, if_false] at hk
      obtain ⟨h1, h2⟩ := h.cells k c hk
      refine ⟨?_, fun n hn hb => h2 n hn hb.2⟩
      rw [upd_ne _ _ _ _ (fun e => hxk e.symm)]
      refine cellRel_congr (fun n hn => ?_) h1
      rw [upd_ne]; rintro rfl; exact h2 n hn hx
  · intro k d a c hk ha
    rw [lookup_addHole] at hk
    by_cases hxk : x = k
    · subst hxk; simp at hk
    · simp only [hxk, if_false] at hk
      obtain ⟨h1, h2⟩ := h.objs k d a c hk ha
      refine ⟨?_, fun n hn hb => h2 n hn hb.2⟩
      rw [upd_ne _ _ _ _ (fun e => hxk e.symm)]
      refine cellRel_congr (fun n hn => ?_) h1
      rw [upd_ne]; rintro rfl; exact h2 n hn hx
  · intro f k bs hf
    obtain ⟨l, h1, h2⟩ := h.lams f k bs hf
    have := hne f _ h1
    refine ⟨l, ?_, ?_⟩
    · rw [lookup_addHole, if_neg (fun e => this e.symm)]; exact h1
    · refine ⟨h2.noAsserts, h2.arity, h2.binders, h2.params, fun n hn => (h2.scope n hn).imp id (fun hb hb' => hb hb'.2), ?_⟩
      refine h2.meaning.imp id (fun hm vs hvs => ?_)
      rw [upd_ne _ _ _ _ this, hm vs hvs]
      refine eval_congr P _ _ _ (fun n hn => ?_)
      refine updMany_congr _ _ (by rw [h2.arity, hvs]) (fun hp => ?_)
      rw [upd_ne]; rintro rfl
      rcases h2.scope _ hn with h3 | h3
      · exact hp h3
      · exact h3 hx
  · intro n hn
    obtain ⟨h1, h2⟩ := h.modes n hn
    refine ⟨.inr h1, fun a => ?_⟩
    obtain ⟨⟨t, h3⟩, -⟩ := h.input n h1
    rw [upd_ne _ _ _ _ (hne n _ h3)]; exact h2 a
  · rintro (hc | hc)
    · subst hc; exact absurd hx h.copyB
    · obtain ⟨⟨t, h3⟩, -⟩ := h.input _ hc
      rw [upd_ne _ _ _ _ (hne _ _ h3)]; exact h.copy hc
  · rintro ⟨-, hb⟩; exact h.copyB hb

theorem Dict.filter_mem_self (d : Dict String (SV V)) : d.filter (fun kv => Dict.mem d kv.1) = d := by
  refine List.filter_eq_self.2 (fun kv hkv => ?_)
  rw [Dict.mem_iff, Dict.isSome_get?_iff]
  exact List.mem_map_of_mem hkv

theorem Dict.set_fresh (d : Dict String (SV V)) (k : String) (v : SV V) (h : Dict.get? d k = none) :
    Dict.set d k v = d ++ [(k, v)] := by
  induction d with
  | nil => rfl
  | cons p d ih =>
    obtain ⟨a, b⟩ := p
    rw [Dict.get?_cons] at h
    by_cases hak : a = k
    · simp [hak] at h
    · simp only [hak, if_false] at h
      simp [Dict.set, hak, ih h]

theorem popTo_addHole (env : Env V) (x : String) (h : env.lookup x = none) : env.popTo (env.addHole x none) = env := by
  obtain ⟨vars, as, sd, md⟩ := env
  simp only [Env.lookup] at h
  simp only [Env.popTo, Env.addHole, Env.set]
  rw [Dict.set_fresh _ _ _ h, List.filter_append, Dict.filter_mem_self]
  have : Dict.mem vars x = false := by
    rw [Bool.eq_false_iff]; intro hm; rw [Dict.mem_iff, h] at hm; cases hm
  simp [this]

/-! ### comparisons and reductions -/

theorem evalAnd_truth {P : PyOps V} (hP : P.Lawful) (σ : Store V) : ∀ es : Exprs V, P.truth (evalAnd P σ es) = evalAll P σ es
  | .nil => by simp [evalAnd, evalAll, hP.truth_ofBool]
  | .cons e .nil => by simp [evalAnd, evalAll]
  | .cons e (.cons e' es) => by
    have ih := evalAnd_truth hP σ (.cons e' es)
    rw [evalAnd, evalAll, ← ih]
    split <;> simp_all

theorem neighbours_spec {P : PyOps V} (hP : P.Lawful) (σ : Store V) : ∀ (r : Cmps V) (l : Expr V),
    evalAll P σ (neighbours l r) = evalCmps P σ (eval P σ l) r
  | .nil, _ => rfl
  | .cons op e rest, l => by
    simp only [neighbours, evalAll, evalCmps, eval, hP.truth_ofBool, Bool.and_true]
    rw [neighbours_spec hP σ rest e]

/-- every comparison in the list has a boolean value -/
theorem neighbours_evalAnd {P : PyOps V} (hP : P.Lawful) (σ : Store V) : ∀ (r : Cmps V) (l : Expr V),
    evalAnd P σ (neighbours l r) = P.ofBool (evalCmps P σ (eval P σ l) r)
  | .nil, _ => rfl
  | .cons op e .nil, l => by simp only [neighbours, evalAnd, eval]
  | .cons op e (.cons op' e' rest), l => by
    have ih := neighbours_evalAnd hP σ (.cons op' e' rest) e
    simp only [neighbours] at ih
    simp only [neighbours, evalAnd]
    rw [ih]
    simp only [eval, evalCmps, hP.truth_ofBool, Bool.and_true]
    cases P.cmp op (eval P σ l) (eval P σ e) <;> simp

theorem eval_mkCompare {P : PyOps V} (hP : P.Lawful) (σ : Store V) (l : Expr V) (r : Cmps V) :
    eval P σ (mkCompare l r) = eval P σ (.compare l r) := by
  match r with
  | .nil => rfl
  | .cons op e .nil => rfl
  | .cons op e (.cons op' e' rest) =>
    have := neighbours_evalAnd hP σ (.cons op e (.cons op' e' rest)) l
    simp only [neighbours] at this
    simp only [mkCompare, eval, neighbours]
    exact this

theorem hasOpaque_neighbours : ∀ (r : Cmps V) (l : Expr V), hasOpaques (neighbours l r) = true → hasOpaque l = true ∨ hasOpaqueC r = true
  | .nil, _, h => by simp [neighbours, hasOpaques] at h
  | .cons op e rest, l, h => by
    simp only [neighbours, hasOpaques, hasOpaque, hasOpaqueC, Bool.or_eq_true, Bool.or_false] at *
    rcases h with (h | h) | h
    · exact .inl h
    · exact .inr (.inl h)
    · exact .inr (hasOpaque_neighbours rest e h)

theorem hasOpaque_neighbours' : ∀ (r : Cmps V) (l : Expr V), hasOpaqueC r = true → hasOpaques (neighbours l r) = true
  | .nil, _, h => by simp [hasOpaqueC] at h
  | .cons op e rest, l, h => by
    simp only [neighbours, hasOpaques, hasOpaque, hasOpaqueC, Bool.or_eq_true, Bool.or_false] at *
    rcases h with h | h
    · exact .inl (.inr h)
    · exact .inr (hasOpaque_neighbours' rest e h)

theorem hasOpaque_mkCompare (l : Expr V) (r : Cmps V) (h : hasOpaque l = true ∨ hasOpaqueC r = true) :
    hasOpaque (mkCompare l r) = true := by
  match r with
  | .nil => simpa [mkCompare, hasOpaque, hasOpaqueC] using h
  | .cons op e .nil => simpa [mkCompare, hasOpaque, hasOpaqueC] using h
  | .cons op e (.cons op' e' rest) =>
    simp only [mkCompare, hasOpaque, hasOpaques, hasOpaqueC, Bool.or_eq_true] at *
    rcases h with h | h | h
    · simp [h]
    · simp [h]
    · exact .inr (hasOpaque_neighbours' (.cons op' e' rest) e (by simpa [hasOpaqueC] using h))

theorem occurs_neighbours (n : String) : ∀ (r : Cmps V) (l : Expr V), occursL n (neighbours l r) = true →
    occurs n l = true ∨ occursC n r = true
  | .nil, _, h => by simp [neighbours, occursL] at h
  | .cons op e rest, l, h => by
    simp only [neighbours, occursL, occurs, occursC, Bool.or_eq_true, Bool.or_false] at *
    rcases h with (h | h) | h
    · exact .inl h
    · exact .inr (.inl h)
    · exact .inr (occurs_neighbours n rest e h)

theorem occurs_mkCompare (n : String) (l : Expr V) (r : Cmps V) (h : occurs n (mkCompare l r) = true) :
    occurs n l = true ∨ occursC n r = true := by
  match r with
  | .nil => simpa [mkCompare, occurs, occursC] using h
  | .cons op e .nil => simpa [mkCompare, occurs, occursC] using h
  | .cons op e (.cons op' e' rest) =>
    simp only [mkCompare, occurs, occursL] at h
    refine occurs_neighbours n (.cons op e (.cons op' e' rest)) l ?_
    rw [neighbours, occursL]; simpa [occurs] using h

/-- Moving a filter into the body of a reduction. -/
theorem reduce_condTrans {P : PyOps V} (hP : P.Lawful) (op : RedOp) (xs : List V) (e' c : Expr V) (ρ : V → Store V) (q : V → Bool)
    (g : V → V) (hc : ∀ v, P.truth (eval P (ρ v) c) = q v) (he : ∀ v, eval P (ρ v) e' = g v) :
    reduce P op (xs.map (fun v => eval P (ρ v) (condTrans P.zero op e' c))) = reduce P op ((xs.filter q).map g) := by
  cases op with
  | any =>
    simp only [reduce, condTrans]
    congr 1
    rw [List.any_map, List.any_map, List.any_filter]
    congr 1
    funext v
    simp only [Function.comp_def, eval, evalAnd, he]
    have := hc v
    split <;> simp_all
  | all =>
    simp only [reduce, condTrans]
    congr 1
    rw [List.all_map, List.all_map, List.all_filter]
    congr 1
    funext v
    simp only [Function.comp_def, eval, evalOr, he]
    have := hc v
    split <;> simp_all [hP.truth_ofBool]
  | sum =>
    simp only [reduce, condTrans]
    have key : ∀ (xs : List V) (acc : V),
        (xs.map (fun v => eval P (ρ v) (.ifexp c e' (.const P.zero)))).foldl P.add acc = ((xs.filter q).map g).foldl P.add acc := by
      intro xs
      induction xs with
      | nil => intro acc; rfl
      | cons x xs ih =>
        intro acc
        simp only [eval, hc, he] at ih
        simp only [List.map_cons, List.foldl_cons, eval, hc, he, List.filter_cons]
        cases q x with
        | true => simp only [if_true, List.map_cons, List.foldl_cons]; exact ih _
        | false =>
          simp only [Bool.false_eq_true, if_false, hP.add_zero]; exact ih _
    exact key xs P.zero

/-! ### lists of arguments -/

/-- Processed arguments, one by one. -/
inductive ArgsRel (P : PyOps V) (B : String → Prop) (ν σ : Store V) : Exprs V → Exprs V → Prop where
  | nil : ArgsRel P B ν σ .nil .nil
  | cons {a e : Expr V} {as es : Exprs V} (h : hasOpaque a = true ∨ eval P ν a = eval P σ e)
      (hs : ∀ n, occurs n a = true → ¬ B n) (t : ArgsRel P B ν σ as es) : ArgsRel P B ν σ (.cons a as) (.cons e es)

theorem ArgsRel.scope {P : PyOps V} {B : String → Prop} {ν σ : Store V} {as es : Exprs V} (h : ArgsRel P B ν σ as es) :
    ∀ n, occursL n as = true → ¬ B n := by
  induction h with
  | nil => simp [occursL]
  | cons _ hs _ ih =>
    intro n hn
    simp only [occursL, Bool.or_eq_true] at hn
    exact hn.elim (hs n) (ih n)

theorem ArgsRel.list {P : PyOps V} {B : String → Prop} {ν σ : Store V} {as es : Exprs V} (h : ArgsRel P B ν σ as es)
    (ho : hasOpaques as = false) : evalList P ν as = evalList P σ es := by
  induction h with
  | nil => rfl
  | cons h hs _ ih =>
    simp only [hasOpaques, Bool.or_eq_false_iff] at ho
    simp only [evalList]
    rw [ih ho.2, h.resolve_left (by simp [ho.1])]

theorem ArgsRel.and {P : PyOps V} {B : String → Prop} {ν σ : Store V} {as es : Exprs V} (h : ArgsRel P B ν σ as es)
    (ho : hasOpaques as = false) : evalAnd P ν as = evalAnd P σ es := by
  induction h with
  | nil => rfl
  | cons h hs t ih =>
    simp only [hasOpaques, Bool.or_eq_false_iff] at ho
    have he := h.resolve_left (by simp [ho.1])
    have ih := ih ho.2
    cases t with
    | nil => simpa only [evalAnd] using he
    | cons h' hs' t' => rw [evalAnd, evalAnd, he, ih]

theorem ArgsRel.or {P : PyOps V} {B : String → Prop} {ν σ : Store V} {as es : Exprs V} (h : ArgsRel P B ν σ as es)
    (ho : hasOpaques as = false) : evalOr P ν as = evalOr P σ es := by
  induction h with
  | nil => rfl
  | cons h hs t ih =>
    simp only [hasOpaques, Bool.or_eq_false_iff] at ho
    have he := h.resolve_left (by simp [ho.1])
    have ih := ih ho.2
    cases t with
    | nil => simpa only [evalOr] using he
    | cons h' hs' t' => rw [evalOr, evalOr, he, ih]

/-- Processed comparators, one by one. -/
inductive CmpsRel (P : PyOps V) (B : String → Prop) (ν σ : Store V) : Cmps V → Cmps V → Prop where
  | nil : CmpsRel P B ν σ .nil .nil
  | cons {op : String} {a e : Expr V} {as es : Cmps V} (h : hasOpaque a = true ∨ eval P ν a = eval P σ e)
      (hs : ∀ n, occurs n a = true → ¬ B n) (t : CmpsRel P B ν σ as es) : CmpsRel P B ν σ (.cons op a as) (.cons op e es)

theorem CmpsRel.scope {P : PyOps V} {B : String → Prop} {ν σ : Store V} {as es : Cmps V} (h : CmpsRel P B ν σ as es) :
    ∀ n, occursC n as = true → ¬ B n := by
  induction h with
  | nil => simp [occursC]
  | cons _ hs _ ih =>
    intro n hn
    simp only [occursC, Bool.or_eq_true] at hn
    exact hn.elim (hs n) (ih n)

theorem CmpsRel.eval {P : PyOps V} {B : String → Prop} {ν σ : Store V} {as es : Cmps V} (h : CmpsRel P B ν σ as es)
    (ho : hasOpaqueC as = false) (v : V) : evalCmps P ν v as = evalCmps P σ v es := by
  induction h generalizing v with
  | nil => rfl
  | cons h hs _ ih =>
    simp only [hasOpaqueC, Bool.or_eq_false_iff] at ho
    simp only [evalCmps]
    rw [h.resolve_left (by simp [ho.1]), ih ho.2]

/-! ### calls of helpers -/

/-- the substitution of `Lambda.apply` -/
def zipSubst (ps : List String) (as : List (Expr V)) : Dict String (Expr V) :=
  (ps.zip as).foldl (fun (d : Dict String (Expr V)) pa => Dict.set d pa.1 pa.2) []

theorem zipSubst_mem (ps : List String) (as : List (Expr V)) {n : String} {a : Expr V}
    (h : Dict.get? (zipSubst ps as) n = some a) : n ∈ ps ∧ a ∈ as := by
  have key : ∀ (l : List (String × Expr V)) (d : Dict String (Expr V)),
      Dict.get? (l.foldl (fun (d : Dict String (Expr V)) pa => Dict.set d pa.1 pa.2) d) n = some a →
      Dict.get? d n = some a ∨ (n, a) ∈ l := by
    intro l
    induction l with
    | nil => intro d h; exact .inl h
    | cons p l ih =>
      intro d h
      rcases ih _ h with h | h
      · rw [Dict.get?_set] at h
        split at h
        · rename_i hp; injection h with h'; right
          rw [← hp, ← h']; simp
        · exact .inl h
      · exact .inr (by simp [h])
  rcases key _ _ h with h | h
  · simp at h
  · exact ⟨(List.of_mem_zip h).1, (List.of_mem_zip h).2⟩

theorem zipSubst_store (P : PyOps V) (ν : Store V) : ∀ (ps : List String) (as : List (Expr V)),
    ps.length = as.length → substStore P ν (zipSubst ps as) = updMany ν ps (as.map (eval P ν)) := by
  have key : ∀ (ps : List String) (as : List (Expr V)) (d : Dict String (Expr V)) (τ : Store V), ps.length = as.length →
      (∀ n, substStore P ν d n = τ n) →
      ∀ n, substStore P ν ((ps.zip as).foldl (fun (d : Dict String (Expr V)) pa => Dict.set d pa.1 pa.2) d) n =
        updMany τ ps (as.map (eval P ν)) n := by
    intro ps
    induction ps with
    | nil => intro as d τ _ h n; simpa [updMany] using h n
    | cons p ps ih =>
      intro as d τ hl h n
      cases as with
      | nil => simp at hl
      | cons a as =>
        simp only [List.zip_cons_cons, List.foldl_cons, List.map_cons, updMany]
        refine ih as _ _ (by simpa using hl) (fun m => ?_) n
        have hm := h m
        unfold substStore at hm ⊢
        rw [Dict.get?_set]
        by_cases hpm : p = m
        · subst hpm; simp [upd]
        · have : ¬ m = p := fun e => hpm e.symm
          simp only [hpm, if_false, upd, this]; exact hm
  intro ps as hl
  funext n
  exact key ps as [] ν hl (fun n => by simp [substStore]) n

theorem ArgsRel.toList_len {P : PyOps V} {B : String → Prop} {ν σ : Store V} {as es : Exprs V} (h : ArgsRel P B ν σ as es) :
    as.toList.length = es.length := by
  induction h with
  | nil => rfl
  | cons _ _ _ ih => simp [Exprs.toList, Exprs.length, ih]

theorem mem_toList_occurs {as : Exprs V} {a : Expr V} (ha : a ∈ as.toList) {n : String} (hn : occurs n a = true) :
    occursL n as = true := by
  match as with
  | .nil => simp [Exprs.toList] at ha
  | .cons e es =>
    simp only [Exprs.toList, List.mem_cons] at ha
    simp only [occursL, Bool.or_eq_true]
    rcases ha with rfl | ha
    · exact .inl hn
    · exact .inr (mem_toList_occurs ha hn)

/-- The store of actual values agrees with the store of processed arguments on the names that matter. -/
theorem args_updMany {P : PyOps V} {B : String → Prop} {ν σ : Store V} (occ : String → Prop) :
    ∀ (ps : List String) {as es : Exprs V} (τ τ' : Store V), ArgsRel P B ν σ as es → ps.length = as.toList.length →
    (∀ n, occ n → n ∉ ps → τ n = τ' n) →
    (∀ n a, Dict.get? ((ps.zip as.toList).foldl (fun (d : Dict String (Expr V)) pa => Dict.set d pa.1 pa.2) []) n = some a →
      occ n → hasOpaque a = false) →
    ∀ n, occ n → updMany τ ps (as.toList.map (eval P ν)) n = updMany τ' ps (evalList P σ es) n := by
  intro ps
  induction ps with
  | nil => intro as es τ τ' _ _ h _ n hn; simpa [updMany] using h n hn
  | cons p ps ih =>
    intro as es τ τ' hr hl h ho n hn
    cases hr with
    | nil => simp [Exprs.toList] at hl
    | cons h1 h2 t =>
      rename_i a e as' es'
      simp only [Exprs.toList, List.map_cons, updMany, evalList]
      refine ih _ _ t (by simpa [Exprs.toList] using hl) ?_ ?_ n hn
      · intro m hm hmp
        by_cases hmp' : m = p
        · subst hmp'
          have hget : Dict.get? (((m :: ps).zip (a :: as'.toList)).foldl
              (fun (d : Dict String (Expr V)) pa => Dict.set d pa.1 pa.2) []) m = some a := by
            simp only [List.zip_cons_cons, List.foldl_cons, Dict.set]
            have key : ∀ (l : List (String × Expr V)) (d : Dict String (Expr V)), (∀ q ∈ l, q.1 ≠ m) → Dict.get? d m = some a →
                Dict.get? (l.foldl (fun (d : Dict String (Expr V)) pa => Dict.set d pa.1 pa.2) d) m = some a := by
              intro l
              induction l with
              | nil => intro d _ hd; exact hd
              | cons q l ihl =>
                intro d hq hd
                refine ihl _ (fun q' hq' => hq q' (by simp [hq'])) ?_
                rw [Dict.get?_set_ne _ _ _ _ (hq q (by simp))]; exact hd
            refine key _ _ ?_ (by simp [Dict.get?_cons])
            rintro q hq rfl
            exact hmp (List.of_mem_zip hq).1
          have := ho m a (by simpa [Exprs.toList] using hget) hm
          rw [upd_eq, upd_eq]
          exact h1.resolve_left (by simp [this])
        · rw [upd_ne _ _ _ _ hmp', upd_ne _ _ _ _ hmp']
          exact h m hm (by simp [hmp', hmp])
      · intro m b hb hm
        refine ho m b ?_ hm
        simp only [Exprs.toList, List.zip_cons_cons, List.foldl_cons, Dict.set]
        have key : ∀ (l : List (String × Expr V)) (d d' : Dict String (Expr V)), (∀ b, Dict.get? d m = some b → Dict.get? d' m = some b) →
            ∀ b, Dict.get? (l.foldl (fun (d : Dict String (Expr V)) pa => Dict.set d pa.1 pa.2) d) m = some b →
              Dict.get? (l.foldl (fun (d : Dict String (Expr V)) pa => Dict.set d pa.1 pa.2) d') m = some b := by
          intro l
          induction l with
          | nil => intro d d' h b hb; exact h b hb
          | cons q l ihl =>
            intro d d' h b hb
            refine ihl _ _ (fun b hb => ?_) b hb
            rw [Dict.get?_set] at hb ⊢
            split
            · rename_i hq; simpa [hq] using hb
            · rename_i hq; simp only [hq, if_false] at hb; exact h b hb
        exact key _ [] _ (by simp) b hb

theorem evalList_length (P : PyOps V) (σ : Store V) : ∀ es : Exprs V, (evalList P σ es).length = es.length
  | .nil => rfl
  | .cons e es => by simp only [evalList, Exprs.length, List.length_cons]; rw [evalList_length P σ es]

theorem zipSubst_keys (ps : List String) (as : List (Expr V)) (hl : ps.length = as.length) :
    ∀ n ∈ ps, n ∈ (zipSubst ps as).map Prod.fst := by
  have key : ∀ (ps : List String) (as : List (Expr V)) (d : Dict String (Expr V)), ps.length = as.length →
      ∀ n, (n ∈ ps ∨ n ∈ d.map Prod.fst) →
      n ∈ ((ps.zip as).foldl (fun (d : Dict String (Expr V)) pa => Dict.set d pa.1 pa.2) d).map Prod.fst := by
    intro ps
    induction ps with
    | nil => intro as d _ n h; simpa using h
    | cons p ps ih =>
      intro as d hl n h
      cases as with
      | nil => simp at hl
      | cons a as =>
        simp only [List.zip_cons_cons, List.foldl_cons]
        refine ih as _ (by simpa using hl) n ?_
        rw [Dict.keys_set]
        simp only [List.mem_cons] at h
        rcases h with (rfl | h) | h
        · right; split
          · assumption
          · simp
        · exact .inl h
        · right; split
          · exact h
          · simp [h]
  intro n hn
  exact key ps as [] hl n (.inl hn)

theorem call_lam {P : PyOps V} {N : Names} {ν σ : Store V} {f : String} {k : Nat} {bs : List String} {l : Lam V}
    (hl : LamRel P ν N.B (σ f) k bs l) {as es : Exprs V} (ha : ArgsRel P N.B ν σ as es) (hlen : es.length = k)
    (hb : ∀ y ∈ bs, N.B y) :
    (hasOpaque (l.apply as.toList).2 = true ∨ eval P ν (l.apply as.toList).2 = P.call (σ f) "" (evalList P σ es)) ∧
    (∀ n, occurs n (l.apply as.toList).2 = true → ¬ N.B n) ∧ (l.apply as.toList).1 = [] := by
  have hs : (l.apply as.toList).2 = subst (zipSubst l.params as.toList) l.body := rfl
  have hcap : NoCap (zipSubst l.params as.toList) (rawOcc · l.body) (binds · l.body) := by
    intro n a hn
    obtain ⟨h1, h2⟩ := zipSubst_mem _ _ hn
    refine ⟨(hl.params n h1).2, fun y hy => ⟨?_, ?_⟩⟩
    · rintro rfl; exact (hl.params y h1).1 (hl.binders y hy)
    · cases ho : occurs y a with
      | false => rfl
      | true => exact absurd (hb y (hl.binders y hy)) (ha.scope y (mem_toList_occurs h2 ho))
  have hl1 : l.params.length = as.toList.length := by rw [hl.arity, ha.toList_len, hlen]
  refine ⟨?_, ?_, ?_⟩
  · rw [hs]
    cases hop : hasOpaque (subst (zipSubst l.params as.toList) l.body) with
    | true => exact .inl rfl
    | false =>
      right
      have hbody : hasOpaque l.body = false := by
        cases hb : hasOpaque l.body with
        | false => rfl
        | true => rw [hasOpaque_subst _ _ hb] at hop; exact hop
      have hm := hl.meaning.resolve_left (by simp [hbody])
      have hevl := evalList_length P σ es
      rw [hm _ (by rw [hevl, hlen]), subst_eval P _ _ ν hcap, zipSubst_store P ν _ _ hl1]
      refine eval_congr P _ _ _ (fun n hn => ?_)
      refine args_updMany (fun n => occurs n l.body = true) l.params ν ν ha hl1 (fun _ _ _ => rfl) ?_ n hn
      intro m a hma hm
      cases ho : hasOpaque a with
      | false => rfl
      | true =>
        have := hasOpaque_subst_of_occurs _ m a hma ho l.body (hl.params m (zipSubst_mem _ _ hma).1).2 hm
        rw [← hop]; exact this.symm
  · rw [hs]
    intro n hn
    rcases occurs_subst _ n l.body (fun m hm => hcap.raw hm) hn with ⟨h1, h2⟩ | ⟨m, a, h1, h2⟩
    · refine (hl.scope n h2).resolve_left (fun hp => ?_)
      have : ∃ a, Dict.get? (zipSubst l.params as.toList) n = some a := by
        have hmem : n ∈ (zipSubst l.params as.toList).map Prod.fst := zipSubst_keys _ _ hl1 n hp
        rw [← Dict.isSome_get?_iff] at hmem
        exact Option.isSome_iff_exists.1 hmem
      obtain ⟨a, ha⟩ := this
      rw [h1] at ha; cases ha
    · exact ha.scope n (mem_toList_occurs (zipSubst_mem _ _ h1).2 h2)
  · simp [Lam.apply, hl.noAsserts]

/-! ### the main theorem on expressions -/

theorem toExpr_ast (e : Expr V) : toExpr (some (.cell (.ast e))) = e := rfl

theorem attrOf_ok {P : PyOps V} {N : Names} {env : Env V} {ν σ : Store V} (h : Inv P N env ν σ) {a : String} {o : Option (SV V)}
    {v : V} (hr : Res P N.B ν o v) {sv : SV V} (ho : attrOf env.modeDefs a o = .ok sv) :
    Res P N.B ν (some sv) (P.getattr v a) := by
  match o with
  | none => cases ho
  | some (.lam _) => cases ho
  | some (.obj d) =>
    simp only [attrOf] at ho
    split at ho
    · rename_i c hc
      cases ho
      obtain ⟨h1, h2⟩ := hr.obj d a c rfl hc
      constructor
      · intro c' hc'; injection hc' with hc'; injection hc' with hc'; subst hc'; exact ⟨h1, h2⟩
      · intro d' a' c' hd; injection hd with hd; cases hd
    · cases ho
  | some (.cell (.cond _)) => cases ho
  | some (.cell (.ast e)) =>
    have hre := hr.toExpr
    simp only [toExpr] at hre
    cases e with
    | hole n typ =>
      simp only [attrOf] at ho
      cases ho
      have hv : ν n = v := by simpa [hasOpaque, eval] using hre.1
      by_cases hm : env.modeDefs.contains n = true
      · rw [if_pos hm]
        refine Res.ast (.inr ?_) (by simp [occurs])
        rw [← hv, (h.modes n hm).2 a]; rfl
      · rw [if_neg hm]
        refine Res.ast (.inr (by simp only [eval]; rw [hv])) ?_
        intro m hm; exact hre.2 m (by simpa [occurs] using hm)
    | _ => cases ho

theorem pair_ok {ε α β : Type} {x y : α} {a b : β} (h : (Except.ok (x, a) : Except ε (α × β)) = .ok (y, b)) : x = y ∧ a = b := by
  cases h; exact ⟨rfl, rfl⟩

theorem procV_mcall (zero : V) (env : Env V) (o f : String) (args : Exprs V) : procV zero env (.mcall o f args) =
    if isCopy (env.lookup o) && f == "deepcopy" then
      (match args with
      | .cons e .nil => procV zero env e
      | _ => .error "ValueError")
    else if isHole (env.lookup o) then do
      let (vs, env) ← procL zero env args
      return (some (.cell (.ast (.mcall o f vs))), env)
    else .error "TypeError" := by
  match args with
  | .nil => rw [procV]; simp
  | .cons e .nil => rw [procV]
  | .cons e (.cons _ _) => rw [procV]; simp

mutual
theorem procV_ok {P : PyOps V} (hP : P.Lawful) : (e : Expr V) → {N : Names} → {env env' : Env V} → {ν σ : Store V} →
    {sv : Option (SV V)} → Static N e → Inv P N env ν σ → procV P.zero env e = .ok (sv, env') →
    env' = env ∧ Res P N.B ν sv (eval P σ e)
  | .const v, N, env, env', ν, σ, sv, _, hI, h => by
    obtain ⟨rfl, rfl⟩ := pair_ok h
    exact ⟨rfl, Res.ast (.inr rfl) (by simp [occurs])⟩
  | .str v, N, env, env', ν, σ, sv, _, hI, h => by
    obtain ⟨rfl, rfl⟩ := pair_ok h
    exact ⟨rfl, Res.ast (.inr rfl) (by simp [occurs])⟩
  | .hole _ _, _, _, _, _, _, _, hs, _, _ => by simp [Static] at hs
  | .opaque, _, _, _, _, _, _, hs, _, _ => by simp [Static] at hs
  | .red _ _ _ _, _, _, _, _, _, _, hs, _, _ => by simp [Static] at hs
  | .ifexp t b o, N, env, env', ν, σ, sv, hs, hI, h => by
    obtain ⟨rfl, rfl⟩ := pair_ok h
    simp only [Static] at hs
    refine ⟨rfl, Res.ast (.inr (eval_congr P _ _ _ (fun n hn => ((hI.input n (hs n hn)).2).symm))) ?_⟩
    intro n hn hb
    obtain ⟨⟨t, h1⟩, -⟩ := hI.input n (hs n hn)
    rw [hI.fresh n hb] at h1; cases h1
  | .name n, N, env, env', ν, σ, sv, _, hI, h => by
    obtain ⟨rfl, rfl⟩ := pair_ok h
    refine ⟨rfl, ?_, ?_⟩
    · intro c hc; exact hI.cells n c hc
    · intro d a c hd hc; exact hI.objs n d a c hd hc
  | .attr e a, N, env, env', ν, σ, sv, hs, hI, h => by
    simp only [Static] at hs
    rw [procV] at h
    by_cases hm : isModeName env.modeDefs e = true
    · rw [if_pos hm] at h
      obtain ⟨rfl, rfl⟩ := pair_ok h
      refine ⟨rfl, Res.ast (.inr ?_) (by simp [occurs])⟩
      cases e with
      | name n =>
        obtain ⟨h1, h2⟩ := hI.modes n hm
        simp only [eval]
        rw [(hI.input n h1).2, h2 a]
      | _ => simp [isModeName] at hm
    · rw [if_neg hm] at h
      obtain ⟨⟨o, env1⟩, h1, h2⟩ := (bind_ok_iff ..).1 h
      obtain ⟨v, h3, h4⟩ := (bind_ok_iff ..).1 h2
      obtain ⟨rfl, rfl⟩ := pair_ok h4
      obtain ⟨rfl, ih⟩ := procV_ok hP e hs hI h1
      exact ⟨rfl, attrOf_ok hI ih h3⟩
  | .unary op e, N, env, env', ν, σ, sv, hs, hI, h => by
    simp only [Static] at hs
    rw [procV] at h
    obtain ⟨⟨v, env1⟩, h1, h2⟩ := (bind_ok_iff ..).1 h
    obtain ⟨rfl, rfl⟩ := pair_ok h2
    obtain ⟨rfl, ih⟩ := procV_ok hP e hs hI h1
    obtain ⟨h3, h4⟩ := ih.toExpr
    refine ⟨rfl, Res.ast (h3.imp (fun h => by simpa [hasOpaque] using h) (fun hv => ?_)) (fun n hn => h4 n (by simpa [occurs] using hn))⟩
    cases op <;> simp only [eval] <;> rw [hv]
  | .binop op l r, N, env, env', ν, σ, sv, hs, hI, h => by
    simp only [Static] at hs
    rw [procV] at h
    obtain ⟨⟨v, env1⟩, h1, h2⟩ := (bind_ok_iff ..).1 h
    obtain ⟨⟨w, env2⟩, h3, h4⟩ := (bind_ok_iff ..).1 h2
    obtain ⟨rfl, rfl⟩ := pair_ok h4
    obtain ⟨rfl, ih1⟩ := procV_ok hP l hs.1 hI h1
    obtain ⟨rfl, ih2⟩ := procV_ok hP r hs.2 hI h3
    obtain ⟨a1, a2⟩ := ih1.toExpr
    obtain ⟨b1, b2⟩ := ih2.toExpr
    refine ⟨rfl, Res.ast ?_ ?_⟩
    · rcases a1 with a1 | a1
      · exact .inl (by simp [hasOpaque, a1])
      · rcases b1 with b1 | b1
        · exact .inl (by simp [hasOpaque, b1])
        · exact .inr (by simp only [eval]; rw [a1, b1])
    · intro n hn
      simp only [occurs, Bool.or_eq_true] at hn
      exact hn.elim (a2 n) (b2 n)
  | .boolop op es, N, env, env', ν, σ, sv, hs, hI, h => by
    simp only [Static] at hs
    rw [procV] at h
    obtain ⟨⟨vs, env1⟩, h1, h2⟩ := (bind_ok_iff ..).1 h
    obtain ⟨rfl, rfl⟩ := pair_ok h2
    obtain ⟨rfl, ih⟩ := procL_ok hP es hs hI h1
    refine ⟨rfl, Res.ast ?_ (fun n hn => ih.scope n (by simpa [occurs] using hn))⟩
    cases ho : hasOpaques vs with
    | true => exact .inl (by simpa [hasOpaque] using ho)
    | false =>
      right
      cases op
      · simp only [eval]; exact ih.and ho
      · simp only [eval]; exact ih.or ho
  | .compare l rest, N, env, env', ν, σ, sv, hs, hI, h => by
    simp only [Static] at hs
    rw [procV] at h
    obtain ⟨⟨vs, env1⟩, h1, h2⟩ := (bind_ok_iff ..).1 h
    obtain ⟨⟨v, env2⟩, h3, h4⟩ := (bind_ok_iff ..).1 h2
    obtain ⟨rfl, rfl⟩ := pair_ok h4
    obtain ⟨rfl, ih1⟩ := procC_ok hP rest hs.2 hI h1
    obtain ⟨rfl, ih2⟩ := procV_ok hP l hs.1 hI h3
    obtain ⟨a1, a2⟩ := ih2.toExpr
    refine ⟨rfl, Res.ast ?_ (fun n hn => (occurs_mkCompare n _ _ hn).elim (a2 n) (ih1.scope n))⟩
    rcases a1 with a1 | a1
    · exact .inl (hasOpaque_mkCompare _ _ (.inl a1))
    · cases ho : hasOpaqueC vs with
      | true => exact .inl (hasOpaque_mkCompare _ _ (.inr ho))
      | false =>
        right
        rw [eval_mkCompare hP]
        simp only [eval]
        rw [a1, ih1.eval ho]
  | .call f args, N, env, env', ν, σ, sv, hs, hI, h => by
    simp only [Static] at hs
    rw [procV] at h
    rcases hs.1 with hA | ⟨k, bs, hL, hlen, hb⟩
    · obtain ⟨⟨t, hf⟩, hσ⟩ := hI.input f hA
      rw [hf] at h
      obtain ⟨⟨vs, env1⟩, h1, h2⟩ := (bind_ok_iff ..).1 h
      obtain ⟨rfl, rfl⟩ := pair_ok h2
      obtain ⟨rfl, ih⟩ := procL_ok hP args hs.2 hI h1
      refine ⟨rfl, Res.ast ?_ ?_⟩
      · cases ho : hasOpaques vs with
        | true => exact .inl (by simpa [hasOpaque] using ho)
        | false => right; simp only [eval]; rw [ih.list ho, hσ]
      · intro n hn hb
        simp only [occurs, Bool.or_eq_true, beq_iff_eq] at hn
        rcases hn with rfl | hn
        · rw [hI.fresh _ hb] at hf; cases hf
        · exact ih.scope n hn hb
    · obtain ⟨l, hf, hl⟩ := hI.lams f k bs hL
      rw [hf] at h
      obtain ⟨⟨vs, env1⟩, h1, h2⟩ := (bind_ok_iff ..).1 h
      obtain ⟨rfl, rfl⟩ := pair_ok h2
      obtain ⟨rfl, ih⟩ := procL_ok hP args hs.2 hI h1
      obtain ⟨c1, c2, c3⟩ := call_lam hl ih hlen hb
      refine ⟨?_, Res.ast c1 c2⟩
      rw [c3, List.append_nil]
  | .mcall o f args, N, env, env', ν, σ, sv, hs, hI, h => by
    simp only [Static] at hs
    obtain ⟨⟨t, ho⟩, hσ⟩ := hI.input o hs.1
    rw [procV_mcall, ho] at h
    by_cases hc : (isCopy (some (SV.cell (Cell.ast (Expr.hole (V := V) o t)))) && f == "deepcopy") = true
    · rw [if_pos hc] at h
      simp only [isCopy, Bool.and_eq_true, beq_iff_eq] at hc
      obtain ⟨rfl, rfl⟩ := hc
      match args, hs, h with
      | .nil, hs, h => cases h
      | .cons e (.cons _ _), hs, h => cases h
      | .cons e .nil, hs, h =>
        simp only [StaticL] at hs
        obtain ⟨rfl, ih⟩ := procV_ok hP e hs.2.1 hI h
        refine ⟨rfl, ?_⟩
        simp only [eval, evalList]
        rw [hσ, hI.copy hs.1]
        exact ih
    · rw [if_neg hc] at h
      simp only [isHole, if_true] at h
      obtain ⟨⟨vs, env1⟩, h1, h2⟩ := (bind_ok_iff ..).1 h
      obtain ⟨rfl, rfl⟩ := pair_ok h2
      obtain ⟨rfl, ih⟩ := procL_ok hP args hs.2 hI h1
      refine ⟨rfl, Res.ast ?_ ?_⟩
      · cases hop : hasOpaques vs with
        | true => exact .inl (by simpa [hasOpaque] using hop)
        | false => right; simp only [eval]; rw [ih.list hop, hσ]
      · intro n hn hb
        simp only [occurs, Bool.or_eq_true, beq_iff_eq] at hn
        rcases hn with rfl | hn
        · rw [hI.fresh _ hb] at ho; cases ho
        · exact ih.scope n hn hb
  | .gen op elt x iter ifs, N, env, env', ν, σ, sv, hs, hI, h => by
    simp only [Static] at hs
    obtain ⟨hx, ⟨m, hm, hAm⟩, hfilt, helt⟩ := hs
    subst hm
    rw [procV] at h
    split at h
    · cases h
    obtain ⟨⟨e, env1⟩, h1, h2⟩ := (bind_ok_iff ..).1 h
    obtain ⟨⟨i, env2⟩, h3, h4⟩ := (bind_ok_iff ..).1 h2
    obtain ⟨rfl, rfl⟩ := pair_ok h4
    have hI1 := fun v => hI.under hx v
    obtain ⟨rfl, -⟩ := procV_ok hP elt helt (hI1 P.zero) h1
    have ih := fun v => (procV_ok hP elt helt (hI1 v) h1).2.toExpr
    obtain ⟨⟨t, hmh⟩, hmσ⟩ := hI.input m hAm
    have hmx : ¬ x = m := by rintro rfl; rw [hI.fresh _ hx] at hmh; cases hmh
    simp only [procV] at h3
    obtain ⟨rfl, rfl⟩ := pair_ok h3
    have hi : (env.addHole x none).lookup m = some (.cell (.ast (.hole m t))) := by
      rw [lookup_addHole, if_neg hmx]; exact hmh
    refine ⟨popTo_addHole env x (hI.fresh x hx), ?_⟩
    rw [hi]
    have hscope : ∀ n, n ≠ x → N.A n → ¬ N.B n := by
      intro n _ hA hb
      obtain ⟨⟨t, h1⟩, -⟩ := hI.input n hA
      rw [hI.fresh n hb] at h1; cases h1
    have hbody : ∀ n, n ≠ x → occurs n (toExpr e) = true → ¬ N.B n := fun n hn ho hb => (ih P.zero).2 n ho ⟨hn, hb⟩
    refine Res.ast ?_ ?_
    · by_cases hop : hasOpaque (toExpr e) = true ∨ (ifs.length ≠ 0 ∧ hasOpaques ifs = true)
      · left
        simp only [hasOpaque, Bool.or_eq_true]
        left
        rcases hop with hop | ⟨hl, hop⟩
        · split
          · exact hop
          · cases op <;> simp [condTrans, hasOpaque, hasOpaques, hop]
        · rw [if_neg hl]
          cases op <;> simp [condTrans, hasOpaque, hasOpaques, hop]
      · right
        have hop1 : hasOpaque (toExpr e) = false := by
          rw [Bool.eq_false_iff]; exact fun hh => hop (.inl hh)
        have he : ∀ v, eval P (upd ν x v) (toExpr e) = eval P (upd σ x v) elt :=
          fun v => (ih v).1.resolve_left (by simp [hop1])
        simp only [eval, toExpr_ast]
        rw [hmσ]
        have hallf : ∀ v, evalAll P (upd ν x v) ifs = evalAll P (upd σ x v) ifs := by
          intro v
          refine evalAll_congr P _ _ ifs (fun n hn => upd_agree v (fun hne => ?_))
          exact ((hI.input n ((hfilt n hn).resolve_left hne)).2).symm
        by_cases hl : ifs.length = 0
        · simp only [hl, if_true]
          have hnil : ifs = .nil := by
            match ifs with
            | .nil => rfl
            | .cons _ _ => simp [Exprs.length] at hl
          subst hnil
          simp only [evalAll]
          rw [show (fun v => eval P (upd ν x v) (toExpr e)) = fun v => eval P (upd σ x v) elt from funext he]
          congr 2
          exact (List.filter_eq_self.2 (by simp)).symm
        · simp only [hl, if_false]
          refine reduce_condTrans hP op _ _ _ (fun v => upd ν x v) _ _ (fun v => ?_) he
          simp only [eval]
          rw [evalAnd_truth hP, hallf]
    · intro n hn
      simp only [occurs, Bool.or_eq_true, Bool.and_eq_true, bne_iff_ne, ne_eq, toExpr_ast, beq_iff_eq] at hn
      rcases hn with rfl | ⟨hne, hn⟩
      · exact hscope _ (fun e => hmx e.symm) hAm
      · by_cases hl : ifs.length = 0
        · simp only [hl, if_true] at hn; exact hbody n hne hn
        · simp only [hl, if_false] at hn
          have : occurs n (toExpr e) = true ∨ occursL n ifs = true := by
            cases op <;> simp only [condTrans, occurs, occursL, Bool.or_eq_true, Bool.or_false] at hn
            · exact hn
            · exact hn
            · exact hn.symm
          rcases this with h5 | h5
          · exact hbody n hne h5
          · exact hscope n hne ((hfilt n h5).resolve_left hne)
theorem procL_ok {P : PyOps V} (hP : P.Lawful) : (es : Exprs V) → {N : Names} → {env env' : Env V} → {ν σ : Store V} →
    {vs : Exprs V} → StaticL N es → Inv P N env ν σ → procL P.zero env es = .ok (vs, env') →
    env' = env ∧ ArgsRel P N.B ν σ vs es
  | .nil, N, env, env', ν, σ, vs, _, _, h => by
    obtain ⟨rfl, rfl⟩ := pair_ok h
    exact ⟨rfl, .nil⟩
  | .cons e es, N, env, env', ν, σ, vs, hs, hI, h => by
    simp only [StaticL] at hs
    rw [procL] at h
    obtain ⟨⟨v, env1⟩, h1, h2⟩ := (bind_ok_iff ..).1 h
    obtain ⟨⟨w, env2⟩, h3, h4⟩ := (bind_ok_iff ..).1 h2
    obtain ⟨rfl, rfl⟩ := pair_ok h4
    obtain ⟨rfl, ih1⟩ := procV_ok hP e hs.1 hI h1
    obtain ⟨rfl, ih2⟩ := procL_ok hP es hs.2 hI h3
    exact ⟨rfl, .cons ih1.toExpr.1 ih1.toExpr.2 ih2⟩
theorem procC_ok {P : PyOps V} (hP : P.Lawful) : (r : Cmps V) → {N : Names} → {env env' : Env V} → {ν σ : Store V} →
    {vs : Cmps V} → StaticC N r → Inv P N env ν σ → procC P.zero env r = .ok (vs, env') →
    env' = env ∧ CmpsRel P N.B ν σ vs r
  | .nil, N, env, env', ν, σ, vs, _, _, h => by
    obtain ⟨rfl, rfl⟩ := pair_ok h
    exact ⟨rfl, .nil⟩
  | .cons op e es, N, env, env', ν, σ, vs, hs, hI, h => by
    simp only [StaticC] at hs
    rw [procC] at h
    obtain ⟨⟨v, env1⟩, h1, h2⟩ := (bind_ok_iff ..).1 h
    obtain ⟨⟨w, env2⟩, h3, h4⟩ := (bind_ok_iff ..).1 h2
    obtain ⟨rfl, rfl⟩ := pair_ok h4
    obtain ⟨rfl, ih1⟩ := procV_ok hP e hs.1 hI h1
    obtain ⟨rfl, ih2⟩ := procC_ok hP es hs.2 hI h3
    exact ⟨rfl, .cons ih1.toExpr.1 ih1.toExpr.2 ih2⟩
end

end Verif.Py
