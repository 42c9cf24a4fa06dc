import Verif.Spec.Switching
import Verif.Proofs.Parser7
import Verif.Proofs.Contains

/-! Switching decision logics are accepted. -/

set_option autoImplicit false

namespace Verif.Py

variable {V : Type}

/-- What the names are bound to, apart from the output. -/
structure Scope (N : Names) (out : String) (env : Env V) : Prop where
  input : ∀ n, N.A n → ∃ typ, env.lookup n = some (.cell (.ast (.hole n typ)))
  fresh : ∀ n, N.B n → env.lookup n = none
  free : ∀ n, N.Local n → n ≠ out → env.lookup n = none

theorem Scope.under {N : Names} {out : String} {env : Env V} (h : Scope N out env) (x : String) :
    Scope (N.under x) out (env.addHole x none) := by
  refine ⟨?_, ?_, ?_⟩
  · rintro n hn
    rw [lookup_addHole]
    split
    · rename_i e; subst e; exact ⟨none, rfl⟩
    · rename_i e
      exact h.input n (hn.resolve_left (fun e' => e e'.symm))
  · rintro n ⟨hn, hb⟩
    rw [lookup_addHole, if_neg (fun e => hn e.symm)]
    exact h.fresh n hb
  · rintro n ⟨h1, h2, h3⟩ hne
    have hx : n ≠ x := fun e => h1 (.inl e)
    rw [lookup_addHole, if_neg (fun e => hx e.symm)]
    refine h.free n ⟨fun ha => h1 (.inr ha), fun hb => h2 ⟨hx, hb⟩, h3⟩ hne

mutual
theorem input_opq {N : Names} : (e : Expr V) → Input N e → hasOpaque e = false
  | .const _, _ => rfl
  | .str _, _ => rfl
  | .name _, _ => rfl
  | .hole _ _, _ => rfl
  | .attr e _, h => by
    obtain ⟨n, rfl, -⟩ := h
    rfl
  | .unary _ e, h => input_opq e h
  | .binop _ l r, h => by
    simp only [hasOpaque, Bool.or_eq_false_iff]
    exact ⟨input_opq l h.1, input_opq r h.2⟩
  | .boolop _ es, h => inputL_opq es h
  | .compare l rest, h => by
    simp only [hasOpaque, Bool.or_eq_false_iff]
    exact ⟨input_opq l h.1, inputC_opq rest h.2⟩
  | .gen _ elt x iter ifs, h => by
    obtain ⟨-, -, ⟨n, rfl, -⟩, h1, h2⟩ := h
    simp only [hasOpaque, Bool.or_eq_false_iff]
    exact ⟨⟨input_opq elt h1, trivial⟩, inputL_opq ifs h2⟩
theorem inputL_opq {N : Names} : (es : Exprs V) → InputL N es → hasOpaques es = false
  | .nil, _ => rfl
  | .cons e es, h => by
    simp only [hasOpaques, Bool.or_eq_false_iff]
    exact ⟨input_opq e h.1, inputL_opq es h.2⟩
theorem inputC_opq {N : Names} : (es : Cmps V) → InputC N es → hasOpaqueC es = false
  | .nil, _ => rfl
  | .cons _ e es, h => by
    simp only [hasOpaqueC, Bool.or_eq_false_iff]
    exact ⟨input_opq e h.1, inputC_opq es h.2⟩
end

theorem neighbours_opq : (l : Expr V) → (vs : Cmps V) → hasOpaque l = false → hasOpaqueC vs = false →
    hasOpaques (neighbours l vs) = false
  | _, .nil, _, _ => rfl
  | l, .cons op e rest, hl, hv => by
    simp only [hasOpaqueC, Bool.or_eq_false_iff] at hv
    simp [neighbours, hasOpaques, hasOpaque, hasOpaqueC, hl, hv.1, neighbours_opq e rest hv.1 hv.2]

theorem mkCompare_opq (l : Expr V) (vs : Cmps V) (hl : hasOpaque l = false) (hv : hasOpaqueC vs = false) :
    hasOpaque (mkCompare l vs) = false := by
  cases vs with
  | nil => simp [mkCompare, hasOpaque, hasOpaqueC, hl]
  | cons op e rest =>
    have hv' := hv
    simp only [hasOpaqueC, Bool.or_eq_false_iff] at hv
    cases rest with
    | nil => simp [mkCompare, hasOpaque, hasOpaqueC, hl, hv.1]
    | cons op' e' r =>
      simp only [mkCompare, hasOpaque, hasOpaques, hasOpaqueC, hl, hv.1, Bool.or_false]
      exact neighbours_opq e _ hv.1 hv.2

mutual
/-- Input expressions are processed without error and leave the environment alone. -/
theorem procV_input (zero : V) {out : String} (hout : ∀ op : RedOp, op.name ≠ out) : (e : Expr V) → {N : Names} → {env : Env V} →
    Scope N out env → Input N e → ∃ e', procV zero env e = .ok (some (.cell (.ast e')), env) ∧ hasOpaque e' = false
  | .const v, _, _, _, _ => ⟨_, rfl, rfl⟩
  | .str v, _, _, _, _ => ⟨_, rfl, rfl⟩
  | .name n, _, env, hS, h => by
    obtain ⟨t, ht⟩ := hS.input n h
    exact ⟨.hole n t, by rw [procV, ht], rfl⟩
  | .attr e a, _, env, hS, h => by
    obtain ⟨n, rfl, hn⟩ := h
    obtain ⟨t, ht⟩ := hS.input n hn
    rw [procV]
    split
    · exact ⟨_, rfl, rfl⟩
    · simp only [procV, ht, bind, Except.bind, attrOf]
      exact ⟨_, rfl, by split <;> rfl⟩
  | .unary op e, _, env, hS, h => by
    obtain ⟨e', h1, h2⟩ := procV_input zero hout e hS h
    refine ⟨.unary op e', by rw [procV, h1]; rfl, h2⟩
  | .binop op l r, _, env, hS, h => by
    obtain ⟨l', h1, h2⟩ := procV_input zero hout l hS h.1
    obtain ⟨r', h3, h4⟩ := procV_input zero hout r hS h.2
    refine ⟨.binop op l' r', ?_, by simp [hasOpaque, h2, h4]⟩
    rw [procV, h1]; simp only [bind, Except.bind, h3]; rfl
  | .boolop op es, _, env, hS, h => by
    obtain ⟨es', h1, h2⟩ := procL_input zero hout es hS h
    refine ⟨.boolop op es', by rw [procV, h1]; rfl, h2⟩
  | .compare l rest, _, env, hS, h => by
    obtain ⟨l', h1, h2⟩ := procV_input zero hout l hS h.1
    obtain ⟨r', h3, h4⟩ := procC_input zero hout rest hS h.2
    refine ⟨mkCompare l' r', ?_, mkCompare_opq _ _ h2 h4⟩
    rw [procV, h3]; simp only [bind, Except.bind, h1]; rfl
  | .gen op elt x iter ifs, N, env, hS, h => by
    obtain ⟨hx, hop, ⟨n, rfl, hn⟩, h1, h2⟩ := h
    obtain ⟨e', h3, h4⟩ := procV_input zero hout elt (hS.under x) h1
    obtain ⟨t, ht⟩ := (hS.under x).input n (.inr hn)
    have hifs := inputL_opq ifs h2
    rw [procV, hS.free _ hop (hout op)]
    simp only [Option.isSome_none, Bool.false_eq_true, if_false, bind, Except.bind, h3, procV, ht, toExpr]
    rw [popTo_addHole env x (hS.fresh x hx)]
    refine ⟨_, rfl, ?_⟩
    simp only [hasOpaque, Bool.or_false]
    split
    · exact h4
    · cases op <;> simp [condTrans, hasOpaque, hasOpaques, h4, hifs]
theorem procL_input (zero : V) {out : String} (hout : ∀ op : RedOp, op.name ≠ out) : (es : Exprs V) → {N : Names} →
    {env : Env V} → Scope N out env → InputL N es → ∃ es', procL zero env es = .ok (es', env) ∧ hasOpaques es' = false
  | .nil, _, _, _, _ => ⟨.nil, rfl, rfl⟩
  | .cons e es, _, _, hS, h => by
    obtain ⟨e', h1, h2⟩ := procV_input zero hout e hS h.1
    obtain ⟨es', h3, h4⟩ := procL_input zero hout es hS h.2
    refine ⟨.cons e' es', ?_, by simp [hasOpaques, h2, h4]⟩
    rw [procL, h1]; simp only [bind, Except.bind, h3]; rfl
theorem procC_input (zero : V) {out : String} (hout : ∀ op : RedOp, op.name ≠ out) : (es : Cmps V) → {N : Names} →
    {env : Env V} → Scope N out env → InputC N es → ∃ es', procC zero env es = .ok (es', env) ∧ hasOpaqueC es' = false
  | .nil, _, _, _, _ => ⟨.nil, rfl, rfl⟩
  | .cons op e es, _, _, hS, h => by
    obtain ⟨e', h1, h2⟩ := procV_input zero hout e hS h.1
    obtain ⟨es', h3, h4⟩ := procC_input zero hout es hS h.2
    refine ⟨.cons op e' es', ?_, by simp [hasOpaqueC, h2, h4]⟩
    rw [procC, h1]; simp only [bind, Except.bind, h3]; rfl
end

/-- Processed literals. -/
def Lit : Expr V → Prop
  | .const _ => True
  | .str _ => True
  | _ => False

theorem Lit.opq {e : Expr V} (h : Lit e) : hasOpaque e = false := by
  cases e <;> simp [Lit] at h <;> rfl

theorem procV_literal (zero : V) {modes : List String} {env : Env V} (hm : env.modeDefs = modes) {e : Expr V}
    (h : Literal modes e) : ∃ e', procV zero env e = .ok (some (.cell (.ast e')), env) ∧ Lit e' := by
  cases e with
  | const v => exact ⟨_, rfl, trivial⟩
  | str s => exact ⟨_, rfl, trivial⟩
  | attr e a =>
    obtain ⟨M, rfl, hM⟩ := h
    refine ⟨.str a, ?_, trivial⟩
    rw [procV, if_pos]
    simp [isModeName, hm, hM]
  | _ => cases h

/-! ### attributes of the output -/

/-- The value can be merged without loss: no unconditional case is a literal. -/
def Good (o : Option (Cell V)) : Prop := ∀ k ∈ casesOf o, k.conds = [] → ¬ Lit k.val

/-- Some cases in front of the old ones, or nothing. -/
def Grow (o t : Option (Cell V)) : Prop :=
  t = o ∨ ∃ new, new ≠ [] ∧ t = some (.cond (new ++ casesOf o)) ∧ ∀ k ∈ new, k.conds ≠ []

/-- A literal, or nothing. -/
def Over (o t : Option (Cell V)) : Prop := t = o ∨ ∃ l, Lit l ∧ t = some (.ast l)

theorem Grow.good {o t : Option (Cell V)} (h : Grow o t) (ho : Good o) : Good t := by
  rcases h with rfl | ⟨new, -, rfl, hn⟩
  · exact ho
  · intro k hk h0
    rcases List.mem_append.1 hk with hk | hk
    · exact absurd h0 (hn k hk)
    · exact ho k hk h0

theorem Grow.trans {o t u : Option (Cell V)} (h : Grow o t) (h' : Grow t u) : Grow o u := by
  rcases h with rfl | ⟨new, h1, rfl, h2⟩
  · exact h'
  · rcases h' with rfl | ⟨new', h3, rfl, h4⟩
    · exact .inr ⟨new, h1, rfl, h2⟩
    · refine .inr ⟨new' ++ new, by simp [h3], by simp [casesOf, Cell.asCases], ?_⟩
      intro k hk
      rcases List.mem_append.1 hk with hk | hk
      · exact h4 k hk
      · exact h2 k hk

theorem Over.trans {o t u : Option (Cell V)} (h : Over o t) (h' : Over t u) : Over o u := by
  rcases h' with rfl | h'
  · exact h
  · exact .inr h'

section
variable [DecidableEq V]

theorem length_eraseCases (orig cs : List (Case V)) : cs.length ≤ (eraseCases orig cs).length + orig.length := by
  unfold eraseCases
  induction orig generalizing cs with
  | nil => simp
  | cons o orig ih =>
    have h1 := ih (cs.erase o)
    have h2 : cs.length ≤ (cs.erase o).length + 1 := by
      rw [List.length_erase]; split <;> omega
    simp only [List.foldl_cons, List.length_cons]
    omega

theorem erase_ne_nil {o t : Option (Cell V)} (ho : Good o) (hne : t ≠ o) (h : Grow o t ∨ Over o t) :
    eraseCases (casesOf o) (casesOf t) ≠ [] := by
  intro he
  rcases h with h | h
  · rcases h with rfl | ⟨new, h1, rfl, -⟩
    · exact hne rfl
    · have := length_eraseCases (casesOf o) (casesOf (some (.cond (new ++ casesOf o))))
      rw [he] at this
      simp only [casesOf, Option.map_some, Option.getD_some, Cell.asCases, List.length_append, List.length_nil] at this
      have : new.length = 0 := by omega
      exact h1 (List.length_eq_zero_iff.1 this)
  · rcases h with rfl | ⟨l, h1, rfl⟩
    · exact hne rfl
    · rcases mem_eraseCases (casesOf o) (casesOf (some (.ast l))) ⟨[], l⟩ (by simp [casesOf, Cell.asCases]) with h2 | h2
      · rw [he] at h2; cases h2
      · exact ho _ h2 rfl h1

/-- Merging a changed attribute succeeds. -/
theorem mergeIfVal_grow {test : Expr V} {t f o : Option (Cell V)} (ho : Good o) (hne : t ≠ f) (ht : Grow o t ∨ Over o t)
    (hf : Grow o f ∨ Over o f) : ∃ c, mergeIfVal test t f o = .ok c ∧ Grow o (some c) := by
  have hex : eraseCases (casesOf o) (casesOf t) ≠ [] ∨ eraseCases (casesOf o) (casesOf f) ≠ [] := by
    by_cases h : t = o
    · exact .inr (erase_ne_nil ho (fun e => hne (h.trans e.symm)) hf)
    · exact .inl (erase_ne_nil ho h ht)
  refine ⟨_, ?_, .inr ⟨addCond test (eraseCases (casesOf o) (casesOf t)) ++
    addCond (.unary .not test) (eraseCases (casesOf o) (casesOf f)), ?_, rfl, ?_⟩⟩
  · unfold mergeIfVal
    simp only
    rw [if_neg]
    · rfl
    · simp only [Bool.and_eq_true, List.isEmpty_iff, not_and]
      intro h1 h2
      exact hex.elim (fun h => h h1) (fun h => h h2)
  · intro he
    rw [List.append_eq_nil_iff] at he
    simp only [addCond, List.map_eq_nil_iff] at he
    exact hex.elim (fun h => h he.1) (fun h => h he.2)
  · intro k hk
    rcases List.mem_append.1 hk with hk | hk
    all_goals
      simp only [addCond, List.mem_map] at hk
      obtain ⟨k', -, rfl⟩ := hk
      simp

/-! ### nothing opaque -/

/-- Nothing in the value is opaque. -/
def CellClear : Cell V → Prop
  | .ast e => hasOpaque e = false
  | .cond cs => ∀ k ∈ cs, (∀ e ∈ k.conds, hasOpaque e = false) ∧ hasOpaque k.val = false

omit [DecidableEq V] in
theorem CellClear.cases {c : Cell V} (h : CellClear c) : ∀ k ∈ c.asCases, (∀ e ∈ k.conds, hasOpaque e = false) ∧ hasOpaque k.val = false := by
  cases c with
  | ast e =>
    intro k hk
    simp only [Cell.asCases, List.mem_singleton] at hk
    subst hk
    exact ⟨by simp, h⟩
  | cond cs => exact h

theorem mergeIfVal_clear {test : Expr V} (htest : hasOpaque test = false) {t f o : Option (Cell V)} {c : Cell V}
    (h : mergeIfVal test t f o = .ok c) (ht : ∀ x, t = some x → CellClear x) (hf : ∀ x, f = some x → CellClear x)
    (ho : ∀ x, o = some x → CellClear x) : CellClear c := by
  have key : ∀ (u : Option (Cell V)), (∀ x, u = some x → CellClear x) → ∀ k ∈ casesOf u,
      (∀ e ∈ k.conds, hasOpaque e = false) ∧ hasOpaque k.val = false := by
    intro u hu k hk
    cases u with
    | none => cases hk
    | some x => exact (hu x rfl).cases k hk
  unfold mergeIfVal at h
  simp only at h
  split at h
  · cases h
  · injection h with h
    subst h
    intro k hk
    rcases List.mem_append.1 hk with hk | hk
    · rcases List.mem_append.1 hk with hk | hk
      · simp only [addCond, List.mem_map] at hk
        obtain ⟨k', hk', rfl⟩ := hk
        obtain ⟨h1, h2⟩ := key t ht k' (eraseCases_sub _ _ _ hk')
        refine ⟨?_, h2⟩
        intro e he
        rcases List.mem_append.1 he with he | he
        · exact h1 e he
        · simp only [List.mem_singleton] at he; subst he; exact htest
      · simp only [addCond, List.mem_map] at hk
        obtain ⟨k', hk', rfl⟩ := hk
        obtain ⟨h1, h2⟩ := key f hf k' (eraseCases_sub _ _ _ hk')
        refine ⟨?_, h2⟩
        intro e he
        rcases List.mem_append.1 he with he | he
        · exact h1 e he
        · simp only [List.mem_singleton] at he; subst he; exact htest
    · exact key o ho k hk

end

theorem mem_set {K W : Type} [DecidableEq K] {d : Dict K W} {k : K} {v : W} {x : K × W} (h : x ∈ Dict.set d k v) :
    x ∈ d ∨ x = (k, v) := by
  induction d with
  | nil => simp only [Dict.set, List.mem_singleton] at h; exact .inr h
  | cons kv d ih =>
    obtain ⟨k', v'⟩ := kv
    simp only [Dict.set] at h
    split at h
    · rcases List.mem_cons.1 h with h | h
      · exact .inr h
      · exact .inl (List.mem_cons_of_mem _ h)
    · rcases List.mem_cons.1 h with h | h
      · exact .inl (h ▸ List.mem_cons_self)
      · exact (ih h).imp (List.mem_cons_of_mem _) id

section
variable [DecidableEq V]

/-- Merging objects succeeds when every changed attribute can be merged. -/
theorem mergeAttrs_ex {test : Expr V} {t f : Dict String (Cell V)} (d0 : Dict String (Cell V))
    (hm : ∀ a, Dict.get? t a ≠ Dict.get? f a → ∃ c, mergeIfVal test (Dict.get? t a) (Dict.get? f a) (Dict.get? d0 a) = .ok c) :
    ∃ d', mergeAttrs test t f d0 = .ok d' := by
  unfold mergeAttrs
  suffices H : ∀ (l : List String) (d : Dict String (Cell V)), l.Nodup → (∀ a ∈ l, Dict.get? d a = Dict.get? d0 a) →
      ∃ d', l.foldlM (fun (d : Dict String (Cell V)) a =>
        if Dict.get? t a = Dict.get? f a then .ok d
        else (mergeIfVal test (Dict.get? t a) (Dict.get? f a) (Dict.get? d a)).map (Dict.set d a)) d = (.ok d' : Except String _) from
    H _ d0 (List.nodup_dedup _) (fun _ _ => rfl)
  intro l
  induction l with
  | nil => intro d _ _; exact ⟨d, rfl⟩
  | cons a l ih =>
    intro d hn hd
    obtain ⟨ha, hn⟩ := List.nodup_cons.1 hn
    rw [List.foldlM_cons]
    by_cases he : Dict.get? t a = Dict.get? f a
    · rw [if_pos he]
      exact ih d hn (fun b hb => hd b (List.mem_cons_of_mem _ hb))
    · rw [if_neg he, hd a List.mem_cons_self]
      obtain ⟨c, hc⟩ := hm a he
      rw [hc]
      refine ih (Dict.set d a c) hn (fun b hb => ?_)
      rw [Dict.get?_set, if_neg (fun (e : a = b) => ha (e ▸ hb))]
      exact hd b (List.mem_cons_of_mem _ hb)

theorem mergeAttrs_clear {test : Expr V} (htest : hasOpaque test = false) {t f d d' : Dict String (Cell V)}
    (h : mergeAttrs test t f d = .ok d') (ht : ∀ x ∈ t, CellClear x.2) (hf : ∀ x ∈ f, CellClear x.2)
    (hd : ∀ x ∈ d, CellClear x.2) : ∀ x ∈ d', CellClear x.2 := by
  unfold mergeAttrs at h
  refine foldlM_inv (P := fun d : Dict String (Cell V) => ∀ x ∈ d, CellClear x.2) h hd ?_
  intro d a d1 _ hd hs
  split at hs
  · injection hs with hs; subst hs; exact hd
  · obtain ⟨c, hc, hs⟩ := (map_ok_iff ..).1 hs
    subst hs
    intro x hx
    rcases mem_set hx with hx | rfl
    · exact hd x hx
    · exact mergeIfVal_clear htest hc (fun y hy => ht _ (Dict.mem_of_get? hy)) (fun y hy => hf _ (Dict.mem_of_get? hy))
        (fun y hy => hd _ (Dict.mem_of_get? hy))

/-! ### blocks -/

/-- The state of the analysis inside a switching logic whose output object is `d`. -/
structure Sw (N : Names) (modes : List String) (out : String) (env0 env : Env V) (d : Dict String (Cell V)) : Prop where
  scope : Scope N out env
  modes : env.modeDefs = modes
  obj : env.lookup out = some (.obj d)
  others : ∀ k, k ≠ out → env.lookup k = env0.lookup k
  clear : ∀ x ∈ d, CellClear x.2
  asserts : ∀ a ∈ env.asserts, hasOpaque a.cond = false ∧ ∀ e ∈ a.pre, hasOpaque e = false

omit [DecidableEq V] in
theorem Sw.setObj {N : Names} {modes : List String} {out : String} {env0 env : Env V} {d d' : Dict String (Cell V)}
    (h : Sw N modes out env0 env d) (hA : ¬ N.A out) (hB : ¬ N.B out) (hc : ∀ x ∈ d', CellClear x.2) :
    Sw N modes out env0 (env.set out (.obj d')) d' := by
  have hl : ∀ k, k ≠ out → (env.set out (.obj d')).lookup k = env.lookup k := by
    intro k hk; rw [lookup_set, if_neg (fun e => hk e.symm)]
  refine ⟨⟨?_, ?_, ?_⟩, h.modes, by rw [lookup_set, if_pos rfl], fun k hk => by rw [hl k hk, h.others k hk], hc, h.asserts⟩
  · intro n hn
    rw [hl n (fun e => hA (e ▸ hn))]; exact h.scope.input n hn
  · intro n hn
    rw [hl n (fun e => hB (e ▸ hn))]; exact h.scope.fresh n hn
  · intro n hn hne
    rw [hl n hne]; exact h.scope.free n hn hne

omit [DecidableEq V] in
theorem Sw.withAsserts {N : Names} {modes : List String} {out : String} {env0 env : Env V} {d : Dict String (Cell V)}
    (h : Sw N modes out env0 env d) (as : List (PAssert V))
    (ha : ∀ a ∈ as, hasOpaque a.cond = false ∧ ∀ e ∈ a.pre, hasOpaque e = false) :
    Sw N modes out env0 { env with asserts := as } d :=
  ⟨⟨h.scope.input, h.scope.fresh, h.scope.free⟩, h.modes, h.obj, h.others, h.clear, ha⟩

theorem foldlM_one {D K ε : Type} (step : D → K → Except ε D) (out : K) (e : D) (r : D)
    (hid : ∀ k, k ≠ out → ∀ d, step d k = .ok d) (hout : step e out = .ok r) :
    ∀ (l : List K), l.Nodup → out ∈ l → l.foldlM step e = .ok r := by
  have hskip : ∀ (l : List K) (d : D), out ∉ l → l.foldlM step d = .ok d := by
    intro l
    induction l with
    | nil => intro d _; rfl
    | cons a l ih =>
      intro d h
      simp only [List.mem_cons, not_or] at h
      rw [List.foldlM_cons, hid a (fun e => h.1 e.symm) d]
      exact ih d h.2
  intro l
  induction l with
  | nil => intro _ h; cases h
  | cons a l ih =>
    intro hn hm
    obtain ⟨ha, hn⟩ := List.nodup_cons.1 hn
    rw [List.foldlM_cons]
    by_cases hao : a = out
    · subst hao
      rw [hout]
      exact hskip l r ha
    · rw [hid a hao e]
      exact ih hn ((List.mem_cons.1 hm).resolve_left (fun e => hao e.symm))

theorem removeSame_sub (orig l : List (PAssert V)) : ∀ a ∈ orig.foldl removeSame l, a ∈ l := by
  induction orig generalizing l with
  | nil => intro a h; exact h
  | cons o orig ih =>
    intro a h
    exact List.mem_of_mem_eraseP (ih _ a h)

/-- Merging the branches of an `if` that only differ in the output. -/
theorem mergeIf_sw {N : Names} {modes : List String} {out : String} {env0 et ef env : Env V} {dt df d : Dict String (Cell V)}
    {test : Expr V} (htest : hasOpaque test = false) (hA : ¬ N.A out) (hB : ¬ N.B out)
    (h : Sw N modes out env0 env d) (ht : Sw N modes out env0 et dt) (hf : Sw N modes out env0 ef df)
    (hm : ∀ a, Dict.get? dt a ≠ Dict.get? df a → ∃ c, mergeIfVal test (Dict.get? dt a) (Dict.get? df a) (Dict.get? d a) = .ok c) :
    ∃ env' d', mergeIf test et ef env = .ok env' ∧ Sw N modes out env0 env' d' ∧
      ((dt = df ∧ d' = d) ∨ (dt ≠ df ∧ mergeAttrs test dt df d = .ok d')) := by
  have hasserts : ∀ a ∈ mergeAssert test et.asserts ef.asserts env.asserts,
      hasOpaque a.cond = false ∧ ∀ e ∈ a.pre, hasOpaque e = false := by
    intro a ha
    unfold mergeAssert at ha
    rcases List.mem_append.1 ha with ha | ha
    · rcases List.mem_append.1 ha with ha | ha
      · obtain ⟨b, hb, rfl⟩ := List.mem_map.1 ha
        obtain ⟨h1, h2⟩ := ht.asserts b (removeSame_sub _ _ b hb)
        refine ⟨h1, fun e he => ?_⟩
        rcases List.mem_append.1 he with he | he
        · exact h2 e he
        · simp only [List.mem_singleton] at he; subst he; exact htest
      · obtain ⟨b, hb, rfl⟩ := List.mem_map.1 ha
        obtain ⟨h1, h2⟩ := hf.asserts b (removeSame_sub _ _ b hb)
        refine ⟨h1, fun e he => ?_⟩
        rcases List.mem_append.1 he with he | he
        · exact h2 e he
        · simp only [List.mem_singleton] at he; subst he; exact htest
    · exact h.asserts a ha
  have hid : ∀ k, k ≠ out → ∀ e : Env V, mergeVar test k (et.lookup k) (ef.lookup k) e = .ok e := by
    intro k hk e
    rw [mergeVar, if_pos (by rw [ht.others k hk, hf.others k hk])]
  have hmem : out ∈ (et.vars.keys ++ ef.vars.keys).dedup := by
    rw [List.mem_dedup, List.mem_append]
    left
    have := ht.obj
    refine (Dict.isSome_get?_iff ..).1 ?_
    unfold Env.lookup at this
    rw [this]; rfl
  by_cases he : dt = df
  · have hstep : mergeVar test out (et.lookup out) (ef.lookup out) env = .ok env := by
      rw [mergeVar, if_pos (by rw [ht.obj, hf.obj, he])]
    refine ⟨_, d, ?_, h.withAsserts _ hasserts, .inl ⟨he, rfl⟩⟩
    rw [mergeIf, foldlM_one _ out env env hid hstep _ (List.nodup_dedup _) hmem]
    rfl
  · obtain ⟨d', hd'⟩ := mergeAttrs_ex d hm
    have hstep : mergeVar test out (et.lookup out) (ef.lookup out) env = .ok (env.set out (.obj d')) := by
      rw [mergeVar, if_neg (by rw [ht.obj, hf.obj]; simpa using he), ht.obj, hf.obj, h.obj]
      simp only [isObj, if_true, object, bind, Except.bind, hd']
      rfl
    refine ⟨_, d', ?_, (h.setObj hA hB (mergeAttrs_clear htest hd' ht.clear hf.clear h.clear)).withAsserts _ hasserts,
      .inr ⟨he, hd'⟩⟩
    rw [mergeIf, foldlM_one _ out env _ hid hstep _ (List.nodup_dedup _) hmem]
    rfl

/-- the attributes assigned in the `if`s of a block -/
def InIf (ss : List (Stmt V)) (a : String) : Prop := ∃ t b o, Stmt.ite t b o ∈ ss ∧ a ∈ assigned (.ite t b o)

omit [DecidableEq V] in
theorem mem_assigneds {ss : List (Stmt V)} {s : Stmt V} {a : String} (hs : s ∈ ss) (ha : a ∈ assigned s) : a ∈ assigneds ss := by
  induction ss with
  | nil => cases hs
  | cons s' ss ih =>
    rw [assigneds, List.mem_append]
    rcases List.mem_cons.1 hs with rfl | hs
    · exact .inl ha
    · exact .inr (ih hs)

/-- What a block does to an attribute. -/
structure Eff (touched inIf : Prop) (o t : Option (Cell V)) : Prop where
  keep : ¬ touched → t = o
  over : ¬ inIf → Over o t
  some : Grow o t ∨ Over o t

mutual
theorem procS_sw {N : Names} {modes : List String} {out : String} (zero : V) (hout : ∀ op : RedOp, op.name ≠ out)
    (hA : ¬ N.A out) (hB : ¬ N.B out) : (s : Stmt V) → {env0 env : Env V} → {d : Dict String (Cell V)} → Switching N modes out s →
    Sw N modes out env0 env d → (∀ t b o, s = .ite t b o → ∀ a ∈ assigned s, Good (Dict.get? d a)) →
    ∃ env' d', procS zero env s = .ok env' ∧ Sw N modes out env0 env' d' ∧
      (∀ a, a ∉ assigned s → Dict.get? d' a = Dict.get? d a) ∧
      ((∃ x a e, s = .setattr x a e) → ∀ a, Over (Dict.get? d a) (Dict.get? d' a)) ∧
      ((∀ x a e, s ≠ .setattr x a e) → ∀ a, Grow (Dict.get? d a) (Dict.get? d' a))
  | .assign _ _, _, _, _, h, _, _ => h.elim
  | .assert c label, env0, env, d, h, hS, _ => by
    obtain ⟨c', h1, h2⟩ := procV_input zero hout c hS.scope h
    refine ⟨_, d, by rw [procS, h1]; rfl, hS.withAsserts _ ?_, fun _ _ => rfl, (by rintro ⟨_, _, _, e⟩; cases e), fun _ _ => .inl rfl⟩
    intro a ha
    rcases List.mem_append.1 ha with ha | ha
    · exact hS.asserts a ha
    · simp only [List.mem_singleton] at ha
      subst ha
      exact ⟨h2, by simp⟩
  | .setattr x a e, env0, env, d, h, hS, _ => by
    obtain ⟨rfl, hl⟩ := h
    obtain ⟨e', h1, h2⟩ := procV_literal zero hS.modes hl
    refine ⟨env.set x (.obj (Dict.set d a (.ast e'))), Dict.set d a (.ast e'), ?_, hS.setObj hA hB ?_, ?_, ?_, ?_⟩
    · rw [procS]
      have hn : (env.lookup x).isNone = false := by rw [hS.obj]; rfl
      rw [hn]
      simp only [Bool.false_eq_true, if_false, h1, bind, Except.bind, attrCell]
      rw [setAttr, hS.obj]
    · intro y hy
      rcases mem_set hy with hy | rfl
      · exact hS.clear y hy
      · exact h2.opq
    · intro b hb
      simp only [assigned, List.mem_singleton] at hb
      rw [Dict.get?_set, if_neg (fun e => hb e.symm)]
    · intro _ b
      rw [Dict.get?_set]
      split
      · exact .inr ⟨e', h2, rfl⟩
      · exact .inl rfl
    · intro hne; exact absurd rfl (hne x a e)
  | .ite t b o, env0, env, d, h, hS, hg => by
    obtain ⟨ht, hb, ho⟩ := h
    obtain ⟨t', h1, h2⟩ := procV_input zero hout t hS.scope ht
    have hg := hg t b o rfl
    have hgb : ∀ a, InIf b a → Good (Dict.get? d a) := by
      rintro a ⟨t1, b1, o1, hm, ha⟩
      exact hg a (by rw [assigned, List.mem_append]; exact .inl (mem_assigneds hm ha))
    have hgo : ∀ a, InIf o a → Good (Dict.get? d a) := by
      rintro a ⟨t1, b1, o1, hm, ha⟩
      exact hg a (by rw [assigned, List.mem_append]; exact .inr (mem_assigneds hm ha))
    obtain ⟨et, dt, b1, b2, b3⟩ := procSs_sw zero hout hA hB b hb hS hgb
    obtain ⟨ef, df, o1, o2, o3⟩ := procSs_sw zero hout hA hB o ho hS hgo
    have hdiff : ∀ a, Dict.get? dt a ≠ Dict.get? df a → a ∈ assigned (.ite t b o) := by
      intro a hne
      rw [assigned, List.mem_append]
      by_contra hc
      rw [not_or] at hc
      exact hne (((b3 a).keep hc.1).trans ((o3 a).keep hc.2).symm)
    have hmerge : ∀ a, Dict.get? dt a ≠ Dict.get? df a →
        ∃ c, mergeIfVal t' (Dict.get? dt a) (Dict.get? df a) (Dict.get? d a) = .ok c ∧ Grow (Dict.get? d a) (some c) :=
      fun a hne => mergeIfVal_grow (hg a (hdiff a hne)) hne (b3 a).some (o3 a).some
    obtain ⟨env', d', m1, m2, m3⟩ := mergeIf_sw h2 hA hB hS b2 o2 (fun a hne => (hmerge a hne).imp (fun _ h => h.1))
    refine ⟨env', d', ?_, m2, ?_, (by rintro ⟨_, _, _, e⟩; cases e), ?_⟩
    · rw [procS, h1]
      simp only [bind, Except.bind, b1, o1, toExpr, m1]
    · intro a ha
      rcases m3 with ⟨-, rfl⟩ | ⟨-, m3⟩
      · rfl
      · rcases mergeAttrs_ok m3 a with ⟨-, h3⟩ | ⟨h3, -⟩
        · exact h3
        · exact absurd (hdiff a h3) ha
    · intro _ a
      rcases m3 with ⟨-, rfl⟩ | ⟨-, m3⟩
      · exact .inl rfl
      · rcases mergeAttrs_ok m3 a with ⟨-, h3⟩ | ⟨h3, c, h4, h5⟩
        · exact .inl h3
        · obtain ⟨c', h6, h7⟩ := hmerge a h3
          rw [h4] at h6; cases h6
          rw [h5]; exact h7
theorem procSs_sw {N : Names} {modes : List String} {out : String} (zero : V) (hout : ∀ op : RedOp, op.name ≠ out)
    (hA : ¬ N.A out) (hB : ¬ N.B out) : (ss : List (Stmt V)) → {env0 env : Env V} → {d : Dict String (Cell V)} →
    Switchings N modes out ss → Sw N modes out env0 env d → (∀ a, InIf ss a → Good (Dict.get? d a)) →
    ∃ env' d', procSs zero env ss = .ok env' ∧ Sw N modes out env0 env' d' ∧
      ∀ a, Eff (a ∈ assigneds ss) (InIf ss a) (Dict.get? d a) (Dict.get? d' a)
  | [], env0, env, d, _, hS, _ => ⟨env, d, rfl, hS, fun a => ⟨fun _ => rfl, fun _ => .inl rfl, .inl (.inl rfl)⟩⟩
  | s :: ss, env0, env, d, h, hS, hg => by
    obtain ⟨hs, hlater, hss⟩ := h
    obtain ⟨env1, d1, h1, h2, h3, h4, h5⟩ := procS_sw zero hout hA hB s hs hS
      (by rintro t b o rfl a ha; exact hg a ⟨t, b, o, List.mem_cons_self, ha⟩)
    have hmono : ∀ a, InIf ss a → InIf (s :: ss) a := by
      rintro a ⟨t, b, o, hm, ha⟩; exact ⟨t, b, o, List.mem_cons_of_mem _ hm, ha⟩
    by_cases hset : ∃ x a e, s = .setattr x a e
    · obtain ⟨x, a0, e, rfl⟩ := hset
      have hnot : ∀ a, InIf ss a → a ≠ a0 := by
        rintro a ⟨t, b, o, hm, ha⟩ rfl
        exact hlater x a e rfl t b o hm ha
      have hsame : ∀ a, a ≠ a0 → Dict.get? d1 a = Dict.get? d a := by
        intro a ha; exact h3 a (by simpa [assigned] using ha)
      obtain ⟨env', d', i1, i2, i3⟩ := procSs_sw zero hout hA hB ss hss h2
        (fun a ha => by rw [hsame a (hnot a ha)]; exact hg a (hmono a ha))
      refine ⟨env', d', by rw [procSs, h1]; exact i1, i2, fun a => ⟨?_, ?_, ?_⟩⟩
      · intro hn
        rw [assigneds, List.mem_append, not_or] at hn
        rw [(i3 a).keep hn.2, h3 a hn.1]
      · intro hn
        exact (h4 ⟨x, a0, e, rfl⟩ a).trans ((i3 a).over (fun hi => hn (hmono a hi)))
      · by_cases ha : a = a0
        · subst ha
          exact .inr ((h4 ⟨x, a, e, rfl⟩ a).trans ((i3 a).over (fun hi => hnot a hi rfl)))
        · rw [← hsame a ha]; exact (i3 a).some
    · have hns : ∀ x a e, s ≠ .setattr x a e := fun x a e he => hset ⟨x, a, e, he⟩
      have hgrow := h5 hns
      obtain ⟨env', d', i1, i2, i3⟩ := procSs_sw zero hout hA hB ss hss h2
        (fun a ha => (hgrow a).good (hg a (hmono a ha)))
      refine ⟨env', d', by rw [procSs, h1]; exact i1, i2, fun a => ⟨?_, ?_, ?_⟩⟩
      · intro hn
        rw [assigneds, List.mem_append, not_or] at hn
        rw [(i3 a).keep hn.2, h3 a hn.1]
      · intro hn
        have hkeep : Dict.get? d1 a = Dict.get? d a := by
          apply h3
          intro ha
          cases s with
          | ite t b o => exact hn ⟨t, b, o, List.mem_cons_self, ha⟩
          | setattr x a' e => exact hns _ _ _ rfl
          | assign x e => simp [assigned] at ha
          | assert c l => simp [assigned] at ha
        rw [← hkeep]; exact (i3 a).over (fun hi => hn (hmono a hi))
      · rcases (i3 a).some with h6 | h6
        · exact .inl ((hgrow a).trans h6)
        · rcases h6 with h6 | h6
          · rw [h6]; exact .inl (hgrow a)
          · exact .inr (.inr h6)
end

omit [DecidableEq V] in
/-- The copy of the input object is created without error. -/
theorem expand_ex {out : String} (cell : String → Cell V) : ∀ (attrs : List String) (env : Env V),
    (env.lookup out = none ∨ ∃ d, env.lookup out = some (.obj d)) →
    ∃ env', attrs.foldlM (fun (e : Env V) a => setAttr e out a (cell a)) env = .ok env' := by
  intro attrs
  induction attrs with
  | nil => intro env _; exact ⟨env, rfl⟩
  | cons a attrs ih =>
    intro env h
    rw [List.foldlM_cons]
    have hstep : ∃ d, setAttr env out a (cell a) = .ok (env.set out (.obj d)) := by
      unfold setAttr
      rcases h with h | ⟨d, h⟩
      · rw [h]; exact ⟨_, rfl⟩
      · rw [h]; exact ⟨_, rfl⟩
    obtain ⟨d, hd⟩ := hstep
    rw [hd]
    exact ih _ (.inr ⟨d, by rw [lookup_set, if_pos rfl]⟩)

omit [DecidableEq V] in
/-- The first statement, as far as names are concerned. -/
theorem expand_mem {out : String} (cell : String → Cell V) (hcell : ∀ a, CellClear (cell a)) : ∀ (attrs : List String)
    (env env' : Env V) (d0 : Dict String (Cell V)), (∀ x ∈ d0, CellClear x.2) →
    (env.lookup out = none ∧ d0 = [] ∨ env.lookup out = some (.obj d0)) →
    attrs.foldlM (fun (e : Env V) a => setAttr e out a (cell a)) env = .ok env' →
    env'.lookup out = none ∨ ∃ d, env'.lookup out = some (.obj d) ∧ ∀ x ∈ d, CellClear x.2 := by
  intro attrs
  induction attrs with
  | nil =>
    intro env env' d0 hd0 h0 h
    simp only [List.foldlM_nil] at h
    cases h
    rcases h0 with ⟨h0, -⟩ | h0
    · exact .inl h0
    · exact .inr ⟨d0, h0, hd0⟩
  | cons a attrs ih =>
    intro env env' d0 hd0 h0 h
    obtain ⟨e1, h1, h2⟩ := (foldlM_cons_ok ..).1 h
    have hstep : ∃ d, e1 = env.set out (.obj d) ∧ ∀ x ∈ d, CellClear x.2 := by
      unfold setAttr at h1
      rcases h0 with ⟨h0, rfl⟩ | h0
      · rw [h0] at h1
        injection h1 with h1
        refine ⟨_, h1.symm, ?_⟩
        intro x hx
        simp only [List.mem_singleton] at hx
        subst hx; exact hcell a
      · rw [h0] at h1
        injection h1 with h1
        refine ⟨_, h1.symm, ?_⟩
        intro x hx
        rcases mem_set hx with hx | rfl
        · exact hd0 x hx
        · exact hcell a
    obtain ⟨d, rfl, hd⟩ := hstep
    exact ih _ _ d hd (.inr (by rw [lookup_set, if_pos rfl])) h2

omit [DecidableEq V] in
theorem compile_ex {e : Expr V} (h : hasOpaque e = false) : compile e = .ok e := by
  simp [compile, h]

/-- Extraction succeeds when nothing is opaque. -/
theorem extract_ex {zero tt : V} {env env2 : Env V} {params : List (String × Option String)} {body : List (Stmt V)} {out : String}
    {d : Dict String (Cell V)} (h1 : procSs zero (addParams { env with asserts := [] } params) body = .ok env2)
    (h2 : env2.lookup out = some (.obj d)) (h3 : ∀ x ∈ d, CellClear x.2)
    (h4 : ∀ a ∈ env2.asserts, hasOpaque a.cond = false ∧ ∀ e ∈ a.pre, hasOpaque e = false) :
    ∃ ir, extract zero tt env params body out = .ok ir := by
  obtain ⟨as, ha, -⟩ := Verif.Proofs.Cont.mapM_ex (fun (ai : PAssert V × Nat) => assertIR tt ai.2 ai.1) (fun _ _ => True) env2.asserts.zipIdx (by
    rintro ⟨x, i⟩ hx
    obtain ⟨g1, g2⟩ := h4 x (List.mem_iff_getElem?.2 ⟨i, List.mem_zipIdx_iff_getElem?.1 hx⟩)
    refine ⟨⟨x.cond, x.label.getD s!"<assert {i}>", mergeConds tt x.pre⟩, ?_, trivial⟩
    · unfold assertIR
      rw [compile_ex g1, compile_ex (by rw [mergeConds_opq]; exact List.any_eq_false.2 (fun e he => by simp [g2 e he]))]
      rfl)
  obtain ⟨ps, hp, -⟩ := Verif.Proofs.Cont.mapM_ex (fun (ac : String × Cell V) => pathsOf tt ac.1 ac.2) (fun _ _ => True) d (by
    rintro ⟨a, c⟩ hx
    have hc := h3 _ hx
    cases c with
    | ast e => exact ⟨[], rfl, trivial⟩
    | cond cs =>
      obtain ⟨r, hr, -⟩ := Verif.Proofs.Cont.mapM_ex (fun (c : Case V) => do
          let g ← compile (mergeConds tt c.conds)
          let v ← compile c.val
          return ({ cond := g, var := a, val := v } : Path V)) (fun _ _ => True) (cs.filter (fun c => !c.conds.isEmpty)) (by
        intro k hk
        obtain ⟨g1, g2⟩ := hc k (List.mem_filter.1 hk).1
        refine ⟨⟨mergeConds tt k.conds, a, k.val⟩, ?_, trivial⟩
        · rw [compile_ex g2, compile_ex (by rw [mergeConds_opq]; exact List.any_eq_false.2 (fun e he => by simp [g1 e he]))]
          rfl)
      exact ⟨r, hr, trivial⟩)
  refine ⟨{ paths := ps.flatten, asserts := as }, ?_⟩
  unfold extract
  unfold addParams at h1
  simp only [h1, bind, Except.bind, ha, h2, hp]
  rfl

/-- Switching decision logics are accepted. -/
theorem switching_ok {P : PyOps V} (hP : P.Lawful) {tt : V} {ν : Store V} {N : Names} {env : Env V} {D : Logic V}
    {attrs : List String} (hD : Logic.WellNamed P ν N env { D with rest := [] } attrs) (hattrs : attrs ≠ [])
    (hout : ∀ op : RedOp, op.name ≠ D.out)
    (hsw : Switchings (N.params (D.params.map Prod.fst)) env.modeDefs D.out D.rest) :
    ∃ ir, extract P.zero tt env D.params D.body D.out = .ok ir := by
  have hM := module_ok hP hD.module
  have hI0 := (hM.inv ν (fun _ _ => rfl)).params (ps := D.params) hD.params
  have hegom : D.ego ∈ D.params.map Prod.fst := List.mem_map_of_mem hD.ego
  have hego : (addParams { env with asserts := [] } D.params).lookup D.ego = some (.cell (.ast (.hole D.ego (some D.cls)))) := by
    obtain ⟨t, ht, hl⟩ := addParams_in D.params { env with asserts := [] } D.ego hegom
    have : t = some D.cls := by
      have hnd := hD.params.nodup
      have g1 := Dict.get?_of_mem (d := D.params) hnd ht
      have g2 := Dict.get?_of_mem (d := D.params) hnd hD.ego
      rw [g1] at g2; injection g2
    subst this; exact hl
  have hdefs := addParams_defs D.params { env with asserts := [] }
  have hmode : (addParams { env with asserts := [] } D.params).modeDefs.contains D.ego = false := by
    rw [hdefs.2.2, Bool.eq_false_iff]
    intro hc
    exact (hD.params.fresh _ hegom).1 ((hM.inv ν (fun _ _ => rfl)).modes _ hc).1
  have hfree : ∀ n, (N.params (D.params.map Prod.fst)).Local n → (addParams { env with asserts := [] } D.params).lookup n = none := by
    intro n hn
    rw [addParams_out _ _ _ (fun hm => hn.1 (.inl hm))]
    cases hl : env.lookup n with
    | none => exact hl
    | some sv =>
      rcases hM.start.look _ sv hl with ⟨t, -, ha⟩ | ⟨j, bs, l, hl', -⟩
      · exact absurd (Or.inr ha) hn.1
      · have := hn.2.2
        rw [show (N.params (D.params.map Prod.fst)).L n = N.L n from rfl, hl'] at this; cases this
  have hA : ¬ (N.params (D.params.map Prod.fst)).A D.out := hD.out.1
  have hB : ¬ (N.params (D.params.map Prod.fst)).B D.out := hD.out.2.1
  obtain ⟨⟨tc, hc⟩, -⟩ := hI0.input "copy" (.inr hD.copy)
  -- the first statement
  obtain ⟨env1, he1⟩ := expand_ex (out := D.out) (initCell D.ego D.cls) attrs (addParams { env with asserts := [] } D.params)
    (.inl (hfree _ hD.out))
  have hfirst : procS P.zero (addParams { env with asserts := [] } D.params) (.assign D.out (deepcopy D.ego)) = .ok env1 := by
    rw [procS, deepcopy, procV_mcall, hc]
    have hcc : (isCopy (some (SV.cell (Cell.ast (Expr.hole (V := V) "copy" tc)))) && "deepcopy" == "deepcopy") = true := by
      simp [isCopy]
    rw [if_pos hcc]
    simp only [procV, hego, bind, Except.bind]
    rw [assignName]
    simp only [Option.bind, hdefs.2.1, show Dict.get? env.stateDefs D.cls = some attrs from hD.state, hmode, Bool.false_eq_true, if_false]
    exact he1
  obtain ⟨o1, o2, o3, o4⟩ := expand_ok attrs _ _ (.inl (hfree _ hD.out)) he1
  have o5 := expand_mem (out := D.out) (initCell D.ego D.cls) (fun a => rfl) attrs _ _ [] (by simp)
    (.inl ⟨hfree _ hD.out, rfl⟩) he1
  obtain ⟨d, d1, d2⟩ : ∃ d, env1.lookup D.out = some (.obj d) ∧ ∀ x ∈ d, CellClear x.2 := by
    rcases o5 with h | h
    · rcases o4 with ⟨-, h'⟩ | ⟨d, h', -⟩
      · exact absurd h' hattrs
      · rw [h] at h'; cases h'
    · exact h
  have dinit : ∀ a c, Dict.get? d a = some c → c = initCell D.ego D.cls a := by
    rcases o4 with ⟨-, h'⟩ | ⟨d', h', h2, -⟩
    · exact absurd h' hattrs
    · rw [d1] at h'; injection h' with h'; injection h' with h'; subst h'; exact h2
  have hS : Sw (N.params (D.params.map Prod.fst)) env.modeDefs D.out env1 env1 d := by
    refine ⟨⟨?_, ?_, ?_⟩, by rw [o3, hdefs.2.2], d1, fun _ _ => rfl, d2, ?_⟩
    · intro n hn
      rw [o1 n (fun e => hA (e ▸ hn))]
      exact (hI0.input n hn).1
    · intro n hn
      rw [o1 n (fun e => hB (e ▸ hn))]
      exact hI0.fresh n hn
    · intro n hn hne
      rw [o1 n hne]; exact hfree n hn
    · intro a ha
      rw [o2, hdefs.1] at ha
      cases ha
  have hgood : ∀ a, Good (Dict.get? d a) := by
    intro a k hk _ hl
    cases hda : Dict.get? d a with
    | none => rw [hda] at hk; cases hk
    | some c =>
      rw [hda, dinit a c hda] at hk
      simp only [casesOf, Option.map_some, Option.getD_some, initCell, Cell.asCases, List.mem_singleton] at hk
      subst hk; exact hl
  obtain ⟨env2, d', s1, s2, -⟩ := procSs_sw P.zero hout hA hB D.rest hsw hS (fun a _ => hgood a)
  refine extract_ex (env2 := env2) (d := d') ?_ s2.obj s2.clear s2.asserts
  rw [Logic.body, procSs, hfirst]
  exact s1

end

end Verif.Py
