import Verif.Proofs.Parser3
import Mathlib.Data.List.Perm.Basic
import Mathlib.Data.List.Count

/-! `proc` on statements agrees with Python's execution: variables and asserts. -/

set_option autoImplicit false

namespace Verif.Py

variable {V : Type}

/-! ### asserts as multisets of keys -/

section asserts
variable [DecidableEq V]

/-- what `_Assert.__eq__` compares -/
def PAssert.key (a : PAssert V) : List (Expr V) × Expr V := (a.pre, a.cond)

theorem map_key_removeSame (l : List (PAssert V)) (o : PAssert V) :
    (removeSame l o).map PAssert.key = (l.map PAssert.key).erase o.key := by
  unfold removeSame
  induction l with
  | nil => rfl
  | cons a l ih =>
    rw [List.eraseP_cons, List.map_cons, List.erase_cons]
    by_cases h : o.same a = true
    · have : a.key = o.key := by
        simp only [PAssert.same, Bool.and_eq_true, decide_eq_true_eq] at h
        simp [PAssert.key, h.1, h.2]
      simp [h, this]
    · have : ¬ a.key = o.key := by
        intro e
        simp only [PAssert.key, Prod.mk.injEq] at e
        exact h (by simp [PAssert.same, e.1, e.2])
      simp [h, this, ih]

theorem map_key_foldl (orig l : List (PAssert V)) :
    (orig.foldl removeSame l).map PAssert.key = (l.map PAssert.key).diff (orig.map PAssert.key) := by
  induction orig generalizing l with
  | nil => rfl
  | cons o orig ih =>
    simp only [List.foldl_cons, List.map_cons, List.diff_cons]
    rw [ih, map_key_removeSame]

/-- Removing the old asserts leaves the new ones. -/
theorem new_keys {l orig : List (PAssert V)} {new : List (List (Expr V) × Expr V)}
    (h : (l.map PAssert.key).Perm (new ++ orig.map PAssert.key)) :
    ((orig.foldl removeSame l).map PAssert.key).Perm new := by
  rw [map_key_foldl]
  refine (h.diff_right _).trans ?_
  rw [List.perm_iff_count]
  intro k
  rw [List.count_diff, List.count_append]
  omega

end asserts

/-- The assert cannot be compiled. -/
def KeyOpq (k : List (Expr V) × Expr V) : Prop := (∃ p ∈ k.1, hasOpaque p = true) ∨ hasOpaque k.2 = true

/-- The path condition holds and the assertion does not. -/
def KeyFails (P : PyOps V) (ν : Store V) (k : List (Expr V) × Expr V) : Prop :=
  (∀ p ∈ k.1, P.truth (eval P ν p) = true) ∧ P.truth (eval P ν k.2) = false

/-- `new` are the asserts collected by a piece of code that fails iff `b`. -/
def NewAsserts (P : PyOps V) (ν : Store V) (new : List (List (Expr V) × Expr V)) (b : Bool) : Prop :=
  (∀ k ∈ new, ¬ KeyOpq k) → (b = true ↔ ∃ k ∈ new, KeyFails P ν k)

/-! ### what statements keep -/

/-- Variables and attributes that have a value keep having one. -/
structure Persist (env env' : Env V) : Prop where
  cell : ∀ x c, env.lookup x = some (.cell c) → Dflt c → ∃ c', env'.lookup x = some (.cell c') ∧ Dflt c'
  obj : ∀ x d, env.lookup x = some (.obj d) →
    (∃ d', env'.lookup x = some (.obj d') ∧ ∀ a c, Dict.get? d a = some c → Dflt c → ∃ c', Dict.get? d' a = some c' ∧ Dflt c') ∨
    (∃ c', env'.lookup x = some (.cell c') ∧ Dflt c')

theorem Persist.refl (env : Env V) : Persist env env :=
  ⟨fun _ c h hd => ⟨c, h, hd⟩, fun _ d h => .inl ⟨d, h, fun _ c hc hd => ⟨c, hc, hd⟩⟩⟩

theorem Persist.trans {a b c : Env V} (h1 : Persist a b) (h2 : Persist b c) : Persist a c := by
  constructor
  · intro x v h hd
    obtain ⟨v', h', hd'⟩ := h1.cell x v h hd
    exact h2.cell x v' h' hd'
  · intro x d h
    rcases h1.obj x d h with ⟨d', h', hk⟩ | ⟨v', h', hd'⟩
    · rcases h2.obj x d' h' with ⟨d'', h'', hk'⟩ | h''
      · refine .inl ⟨d'', h'', fun at' v hv hd => ?_⟩
        obtain ⟨v', hv', hd'⟩ := hk at' v hv hd
        exact hk' at' v' hv' hd'
      · exact .inr h''
    · exact .inr (h2.cell x v' h' hd')

/-- Everything known about one step from `env` to `env'`. -/
structure Step (P : PyOps V) (N : Names) (ν : Store V) (env env' : Env V) (σ' : Store V) (failed : Bool) : Prop where
  inv : Inv P N env' ν σ'
  persist : Persist env env'
  frame : ∀ n, ¬ N.Local n → env'.lookup n = env.lookup n
  asserts : ∃ new, (env'.asserts.map PAssert.key).Perm (new ++ env.asserts.map PAssert.key) ∧ NewAsserts P ν new failed

/-! ### assignments -/

theorem dflt_ast (e : Expr V) : Dflt (.ast e) := ⟨⟨[], e⟩, by simp [Cell.asCases], rfl⟩

/-- A plain right-hand side gives an expression that is not a bare name. -/
theorem plain_ast {P : PyOps V} {N : Names} {e : Expr V} {env env' : Env V} {ν σ : Store V} {sv : Option (SV V)}
    (hs : Static N e) (hp : Plain N e) (hI : Inv P N env ν σ) (h : procV P.zero env e = .ok (sv, env')) :
    ∃ e', sv = some (.cell (.ast e')) ∧ ∀ n t, e' ≠ .hole n t := by
  match e with
  | .const v => obtain ⟨rfl, rfl⟩ := pair_ok h; exact ⟨_, rfl, by simp⟩
  | .str v => obtain ⟨rfl, rfl⟩ := pair_ok h; exact ⟨_, rfl, by simp⟩
  | .hole _ _ => simp [Static] at hs
  | .opaque => simp [Static] at hs
  | .red _ _ _ _ => simp [Static] at hs
  | .ifexp t b o => obtain ⟨rfl, rfl⟩ := pair_ok h; exact ⟨_, rfl, by simp⟩
  | .name n => simp [Plain] at hp
  | .attr e a =>
    simp only [Plain] at hp
    obtain ⟨n, rfl, hA⟩ := hp
    rw [procV] at h
    split at h
    · obtain ⟨rfl, rfl⟩ := pair_ok h; exact ⟨_, rfl, by simp⟩
    · obtain ⟨⟨t, ht⟩, -⟩ := hI.input n hA
      simp only [procV, ht, bind, Except.bind, attrOf] at h
      obtain ⟨rfl, rfl⟩ := pair_ok h
      refine ⟨_, rfl, fun n t => ?_⟩
      split <;> simp
  | .unary op e =>
    rw [procV] at h
    obtain ⟨⟨v, env1⟩, h1, h2⟩ := (bind_ok_iff ..).1 h
    obtain ⟨rfl, rfl⟩ := pair_ok h2
    exact ⟨_, rfl, by simp⟩
  | .binop op l r =>
    rw [procV] at h
    obtain ⟨⟨v, env1⟩, h1, h2⟩ := (bind_ok_iff ..).1 h
    obtain ⟨⟨w, env2⟩, h3, h4⟩ := (bind_ok_iff ..).1 h2
    obtain ⟨rfl, rfl⟩ := pair_ok h4
    exact ⟨_, rfl, by simp⟩
  | .boolop op es =>
    rw [procV] at h
    obtain ⟨⟨vs, env1⟩, h1, h2⟩ := (bind_ok_iff ..).1 h
    obtain ⟨rfl, rfl⟩ := pair_ok h2
    exact ⟨_, rfl, by simp⟩
  | .compare l rest =>
    rw [procV] at h
    obtain ⟨⟨vs, env1⟩, h1, h2⟩ := (bind_ok_iff ..).1 h
    obtain ⟨⟨v, env2⟩, h3, h4⟩ := (bind_ok_iff ..).1 h2
    obtain ⟨rfl, rfl⟩ := pair_ok h4
    refine ⟨_, rfl, fun n t => ?_⟩
    match vs with
    | .nil => simp [mkCompare]
    | .cons _ _ .nil => simp [mkCompare]
    | .cons _ _ (.cons _ _ _) => simp [mkCompare]
  | .call f args =>
    simp only [Plain] at hp
    simp only [Static] at hs
    rw [procV] at h
    rcases hs.1 with hA | ⟨k, bs, hL, hlen, hb⟩
    · obtain ⟨⟨t, hf⟩, hσ⟩ := hI.input f hA
      rw [hf] at h
      obtain ⟨⟨vs, env1⟩, h1, h2⟩ := (bind_ok_iff ..).1 h
      obtain ⟨rfl, rfl⟩ := pair_ok h2
      exact ⟨_, rfl, by simp⟩
    · rw [hp] at hL; cases hL
  | .mcall o f args =>
    simp only [Plain] at hp
    simp only [Static] at hs
    obtain ⟨⟨t, ho⟩, hσ⟩ := hI.input o hs.1
    rw [procV_mcall, ho] at h
    by_cases hc : (isCopy (some (SV.cell (Cell.ast (Expr.hole (V := V) o t)))) && f == "deepcopy") = true
    · simp only [isCopy, Bool.and_eq_true, beq_iff_eq] at hc
      exact absurd hc hp
    · rw [if_neg hc] at h
      simp only [isHole, if_true] at h
      obtain ⟨⟨vs, env1⟩, h1, h2⟩ := (bind_ok_iff ..).1 h
      obtain ⟨rfl, rfl⟩ := pair_ok h2
      exact ⟨_, rfl, by simp⟩
  | .gen op elt x iter ifs =>
    rw [procV] at h
    split at h
    · cases h
    obtain ⟨⟨e, env1⟩, h1, h2⟩ := (bind_ok_iff ..).1 h
    obtain ⟨⟨i, env2⟩, h3, h4⟩ := (bind_ok_iff ..).1 h2
    obtain ⟨rfl, rfl⟩ := pair_ok h4
    exact ⟨_, rfl, by simp⟩

theorem assignName_ast (env : Env V) (x : String) {e : Expr V} (h : ∀ n t, e ≠ .hole n t) :
    assignName env x (some (.cell (.ast e))) = .ok (env.set x (.cell (.ast e))) := by
  cases e with
  | hole n t => exact absurd rfl (h n t)
  | _ => rfl

/-- Overwriting a local variable. -/
theorem Inv.setVar {P : PyOps V} {N : Names} {env : Env V} {ν σ : Store V} (hI : Inv P N env ν σ) {x : String}
    (hx : N.Local x) {sv : SV V} {v : V} (hr : Res P N.B ν (some sv) v) : Inv P N (env.set x sv) ν (upd σ x v) := by
  have hne : ∀ n, ¬ N.Local n → n ≠ x := by rintro n hn rfl; exact hn hx
  have hA : ∀ n, N.A n → ¬ N.Local n := fun n h hl => hl.1 h
  have hB : ∀ n, N.B n → ¬ N.Local n := fun n h hl => hl.2.1 h
  constructor
  · intro n hn
    have := hne n (hA n hn)
    obtain ⟨⟨t, h1⟩, h2⟩ := hI.input n hn
    refine ⟨⟨t, by rw [lookup_set, if_neg (fun e => this e.symm)]; exact h1⟩, by rw [upd_ne _ _ _ _ this]; exact h2⟩
  · intro n hn
    rw [lookup_set, if_neg (fun e => hne n (hB n hn) e.symm)]; exact hI.fresh n hn
  · intro k c hk
    rw [lookup_set] at hk
    split at hk
    · rename_i h; subst h; rw [upd_eq]; exact hr.cell c hk
    · rename_i h; rw [upd_ne _ _ _ _ (fun e => h e.symm)]; exact hI.cells k c hk
  · intro k d a c hk hc
    rw [lookup_set] at hk
    split at hk
    · rename_i h; subst h; rw [upd_eq]; exact hr.obj d a c hk hc
    · rename_i h; rw [upd_ne _ _ _ _ (fun e => h e.symm)]; exact hI.objs k d a c hk hc
  · intro f k bs hf
    obtain ⟨l, h1, h2⟩ := hI.lams f k bs hf
    have hfx : f ≠ x := hne f (fun hl => by rw [hl.2.2] at hf; cases hf)
    refine ⟨l, by rw [lookup_set, if_neg (fun e => hfx e.symm)]; exact h1, by rw [upd_ne _ _ _ _ hfx]; exact h2⟩
  · exact hI.modes
  · exact hI.copy
  · exact hI.copyB

theorem step_of_set {P : PyOps V} {N : Names} {env : Env V} {ν σ : Store V} (hI : Inv P N env ν σ) {x : String}
    (hx : N.Local x) {sv : SV V} {v : V} (hr : Res P N.B ν (some sv) v) (hp : Persist env (env.set x sv)) :
    Step P N ν env (env.set x sv) (upd σ x v) false := by
  refine ⟨hI.setVar hx hr, hp, ?_, [], ?_, ?_⟩
  · intro n hn
    rw [lookup_set, if_neg]; rintro rfl; exact hn hx
  · exact List.Perm.refl _
  · intro _; simp

theorem persist_setCell (env : Env V) (x : String) {c : Cell V} (hd : Dflt c) : Persist env (env.set x (.cell c)) := by
  constructor
  · intro y c' hy hd'
    rw [lookup_set]
    split
    · exact ⟨c, rfl, hd⟩
    · exact ⟨c', hy, hd'⟩
  · intro y d hy
    rw [lookup_set]
    split
    · exact .inr ⟨c, rfl, hd⟩
    · exact .inl ⟨d, hy, fun a c' hc' hd' => ⟨c', hc', hd'⟩⟩

theorem persist_setObj (env : Env V) (x : String) {d' : Dict String (Cell V)} (hx : ∀ c, env.lookup x ≠ some (.cell c))
    (h : ∀ d, env.lookup x = some (.obj d) → ∀ a c, Dict.get? d a = some c → Dflt c → ∃ c', Dict.get? d' a = some c' ∧ Dflt c') :
    Persist env (env.set x (.obj d')) := by
  constructor
  · intro y c' hy hd'
    rw [lookup_set]
    split
    · rename_i e; subst e; exact absurd hy (hx c')
    · exact ⟨c', hy, hd'⟩
  · intro y d hy
    rw [lookup_set]
    split
    · rename_i e; subst e; exact .inl ⟨d', rfl, h d hy⟩
    · exact .inl ⟨d, hy, fun a c' hc' hd' => ⟨c', hc', hd'⟩⟩

/-! ### merging -/

section main
variable [DecidableEq V]

theorem safe_eq {et ef env : Env V} (h : mergeSafe et ef env = true) {x : String} (he : et.lookup x = ef.lookup x) :
    env.lookup x = none ∨ env.lookup x = et.lookup x := by
  by_cases hx : x ∈ env.vars.keys
  · have := List.all_eq_true.1 h x hx
    simp only [safeVar, Bool.and_eq_true, Bool.or_eq_true, decide_eq_true_eq] at this
    rcases this.1 with (h1 | h1) | h1
    · exact absurd he h1
    · exact .inl h1
    · exact .inr h1
  · exact .inl ((Dict.get?_none_iff _ _).2 hx)

theorem safe_attr {et ef env : Env V} (h : mergeSafe et ef env = true) {x a : String} {dt df d : Dict String (Cell V)}
    (ht : et.lookup x = some (.obj dt)) (hf : ef.lookup x = some (.obj df)) (ho : env.lookup x = some (.obj d))
    (he : Dict.get? dt a = Dict.get? df a) : Dict.get? d a = none ∨ Dict.get? d a = Dict.get? dt a := by
  have hx : x ∈ env.vars.keys := by
    by_contra hx
    have := (Dict.get?_none_iff env.vars x).2 hx
    rw [show Dict.get? env.vars x = env.lookup x from rfl, ho] at this
    cases this
  have := List.all_eq_true.1 h x hx
  simp only [safeVar, ht, hf, ho, Bool.and_eq_true] at this
  by_cases ha : a ∈ d.keys
  · have h2 := List.all_eq_true.1 this.2 a ha
    simp only [safeCell, Bool.or_eq_true, decide_eq_true_eq] at h2
    rcases h2 with (h1 | h1) | h1
    · exact absurd he h1
    · exact .inl h1
    · exact .inr h1
  · exact .inl ((Dict.get?_none_iff _ _).2 ha)

theorem casesOf_dflt {o : Option (Cell V)} {test : Expr V} {t f : Option (Cell V)} {c c0 : Cell V}
    (h : mergeIfVal test t f o = .ok c) (ho : o = some c0) (hd : Dflt c0) : Dflt c := by
  obtain ⟨rfl, -⟩ := mergeIfVal_ok h
  obtain ⟨k, hk, hk0⟩ := hd
  refine ⟨k, ?_, hk0⟩
  simp only [Cell.asCases, List.mem_append]
  right; rw [ho]; simpa [casesOf] using hk

omit [DecidableEq V] in
theorem scalar_ok {o : Option (SV V)} {c : Option (Cell V)} (h : scalar o = .ok c) :
    (o = none ∧ c = none) ∨ ∃ c', o = some (.cell c') ∧ c = some c' := by
  match o with
  | none => cases h; exact .inl ⟨rfl, rfl⟩
  | some (.cell c') => cases h; exact .inr ⟨c', rfl, rfl⟩
  | some (.obj _) => cases h
  | some (.lam _) => cases h

omit [DecidableEq V] in
theorem object_ok {o : Option (SV V)} {d : Dict String (Cell V)} (h : object o = .ok d) :
    (o = none ∧ d = []) ∨ o = some (.obj d) := by
  match o with
  | none => cases h; exact .inl ⟨rfl, rfl⟩
  | some (.cell _) => cases h
  | some (.obj _) => cases h; exact .inr rfl
  | some (.lam _) => cases h

/-- The merged environment stands for the store of the branch taken. -/
theorem merge_step {P : PyOps V} (hP : P.Lawful) {N : Names} {env et ef env' : Env V} {ν σ σt σf : Store V} {test : Expr V}
    {b ft ff : Bool} (hsafe : mergeSafe et ef env = true) (htest : hasOpaque test = true ∨ P.truth (eval P ν test) = b)
    (hscope : ∀ n, occurs n test = true → ¬ N.B n)
    (st : Step P N ν env et σt ft) (sf : Step P N ν env ef σf ff) (h : mergeIf test et ef env = .ok env')
    (hI0 : Inv P N env ν σ) :
    Step P N ν env env' (if b then σt else σf) (if b then ft else ff) := by
  obtain ⟨hv, hsd, hmd, has⟩ := mergeIf_ok h
  have hframe : ∀ n, ¬ N.Local n → env'.lookup n = env.lookup n := by
    intro n hn
    have := hv n
    rw [st.frame n hn, sf.frame n hn] at this
    generalize hr : env'.lookup n = r at this
    generalize env.lookup n = o at this
    cases this with
    | same => rfl
    | obj hne => exact absurd rfl hne
    | cell hne => exact absurd rfl hne
  -- the invariant of the branch taken
  have hIb : ∀ Q : Prop, (Inv P N et ν σt → b = true → Q) → (Inv P N ef ν σf → b = false → Q) → Q := by
    intro Q h1 h2
    cases b with
    | true => exact h1 st.inv rfl
    | false => exact h2 sf.inv rfl
  have hpersist : Persist env env' := by
    constructor
    · intro x c hx hd
      have hm := hv x
      obtain ⟨ct, h1, -⟩ := st.persist.cell x c hx hd
      rw [hx, h1] at hm
      generalize hr : env'.lookup x = r at hm
      generalize ef.lookup x = f at hm
      cases hm with
      | same => exact ⟨c, rfl, hd⟩
      | cell hne hto ht hf ho hmv =>
        refine ⟨_, rfl, ?_⟩
        rcases scalar_ok ho with ⟨h2, -⟩ | ⟨c', h2, h3⟩
        · cases h2
        · cases h2; exact casesOf_dflt hmv h3 hd
    · intro x d hx
      have hm := hv x
      generalize hr : env'.lookup x = r at hm
      generalize htl : et.lookup x = t at hm
      generalize hfl : ef.lookup x = f at hm
      rw [hx] at hm
      cases hm with
      | same => exact .inl ⟨d, rfl, fun a c hc hd => ⟨c, hc, hd⟩⟩
      | obj hne hf ho hma =>
        refine .inl ⟨_, rfl, fun a c hc hd => ?_⟩
        rcases object_ok ho with ⟨h2, -⟩ | h2
        · cases h2
        · cases h2
          rcases mergeAttrs_ok hma a with ⟨-, h3⟩ | ⟨-, c', h3, h4⟩
          · exact ⟨c, by rw [h3]; exact hc, hd⟩
          · exact ⟨c', h4, casesOf_dflt h3 hc hd⟩
      | cell hne hto ht hf ho hmv =>
        rcases scalar_ok ho with ⟨h2, -⟩ | ⟨c', h2, h3⟩ <;> cases h2
  refine ⟨?_, hpersist, hframe, ?_⟩
  · -- invariant
    have hA : ∀ n, N.A n → ¬ N.Local n := fun n h hl => hl.1 h
    have hB : ∀ n, N.B n → ¬ N.Local n := fun n h hl => hl.2.1 h
    constructor
    · intro n hn
      refine hIb _ (fun hI hb => ?_) (fun hI hb => ?_)
      · subst hb
        obtain ⟨⟨t, h1⟩, h2⟩ := hI.input n hn
        refine ⟨⟨t, ?_⟩, h2⟩
        rw [hframe n (hA n hn), ← st.frame n (hA n hn)]; exact h1
      · subst hb
        obtain ⟨⟨t, h1⟩, h2⟩ := hI.input n hn
        refine ⟨⟨t, ?_⟩, h2⟩
        rw [hframe n (hA n hn), ← sf.frame n (hA n hn)]; exact h1
    · intro n hn
      rw [hframe n (hB n hn), ← st.frame n (hB n hn)]; exact st.inv.fresh n hn
    · intro x c hx
      have hm := hv x
      rw [hx] at hm
      generalize htl : et.lookup x = t at hm
      generalize hfl : ef.lookup x = f at hm
      generalize hol : env.lookup x = o at hm
      cases hm with
      | same =>
        rcases safe_eq hsafe (htl.trans hfl.symm) with h1 | h1
        · rw [hol] at h1; cases h1
        · refine hIb _ (fun hI hb => ?_) (fun hI hb => ?_)
          · subst hb; exact hI.cells x c (h1.symm.trans hol)
          · subst hb; exact hI.cells x c (by rw [hfl, ← htl, ← h1, hol])
      | cell hne hto ht hf ho hmv =>
        rename_i ct cf co
        have key : ∀ {e : Env V} {τ : Store V} {s : Option (SV V)} {cs : Option (Cell V)}, Inv P N e ν τ → e.lookup x = s →
            scalar s = .ok cs → ∀ c', cs = some c' → CellRel P ν c' (τ x) ∧ ∀ n, occCell n c' → ¬ N.B n := by
          intro e τ s cs hI hs hsc c' hc'
          rcases scalar_ok hsc with ⟨h1, h2⟩ | ⟨c'', h1, h2⟩
          · rw [h2] at hc'; cases hc'
          · rw [h2] at hc'; cases hc'
            exact hI.cells x _ (hs.trans h1)
        have pers : ∀ {e : Env V} {s : Option (SV V)} {cs : Option (Cell V)}, Persist env e → e.lookup x = s →
            scalar s = .ok cs → ∀ c', co = some c' → Dflt c' → ∃ c'', cs = some c'' ∧ Dflt c'' := by
          intro e s cs hp hs hsc c' hc' hd
          rcases scalar_ok ho with ⟨h1, h2⟩ | ⟨c'', h1, h2⟩
          · rw [h2] at hc'; cases hc'
          · rw [h2] at hc'; cases hc'
            obtain ⟨c3, h3, h4⟩ := hp.cell x _ (hol.trans h1) hd
            rw [hs] at h3; subst h3
            cases hsc
            exact ⟨c3, rfl, h4⟩
        have occo : ∀ c', co = some c' → ∀ n, occCell n c' → ¬ N.B n := by
          intro c' hc' n hn
          exact (key hI0 hol ho c' hc').2 n hn
        refine ⟨merge_rel hP hmv htest ?_ ?_ (pers st.persist htl ht) (pers sf.persist hfl hf), ?_⟩
        · intro hb _ c' hc'; subst hb; exact (key st.inv htl ht c' hc').1
        · intro hb c' hc'; subst hb; exact (key sf.inv hfl hf c' hc').1
        · intro n hn
          rcases merge_occ hmv hn with h1 | ⟨c', h1, h2⟩ | ⟨c', h1, h2⟩ | ⟨c', h1, h2⟩
          · exact hscope n h1
          · exact (key st.inv htl ht c' h1).2 n h2
          · exact (key sf.inv hfl hf c' h1).2 n h2
          · exact occo c' h1 n h2
    · intro x d' a c hx hc
      have hm := hv x
      rw [hx] at hm
      generalize htl : et.lookup x = t at hm
      generalize hfl : ef.lookup x = f at hm
      generalize hol : env.lookup x = o at hm
      cases hm with
      | same =>
        rcases safe_eq hsafe (htl.trans hfl.symm) with h1 | h1
        · rw [hol] at h1; cases h1
        · refine hIb _ (fun hI hb => ?_) (fun hI hb => ?_)
          · subst hb; exact hI.objs x d' a c (h1.symm.trans hol) hc
          · subst hb; exact hI.objs x d' a c (by rw [hfl, ← htl, ← h1, hol]) hc
      | obj hne hf ho hma =>
        rename_i dt df d
        have key : ∀ {e : Env V} {τ : Store V} {s : Option (SV V)} {ds : Dict String (Cell V)}, Inv P N e ν τ →
            e.lookup x = s → object s = .ok ds → ∀ c', Dict.get? ds a = some c' →
            CellRel P ν c' (P.getattr (τ x) a) ∧ ∀ n, occCell n c' → ¬ N.B n := by
          intro e τ s ds hI hs hsc c' hc'
          rcases object_ok hsc with ⟨h1, h2⟩ | h1
          · rw [h2] at hc'; cases hc'
          · exact hI.objs x ds a c' (hs.trans h1) hc'
        have pers : ∀ {e : Env V} {s : Option (SV V)} {ds : Dict String (Cell V)}, Persist env e → e.lookup x = s →
            object s = .ok ds → ∀ c', Dict.get? d a = some c' → Dflt c' → ∃ c'', Dict.get? ds a = some c'' ∧ Dflt c'' := by
          intro e s ds hp hs hsc c' hc' hd
          rcases object_ok ho with ⟨h1, h2⟩ | h1
          · rw [h2] at hc'; cases hc'
          · rcases hp.obj x d (hol.trans h1) with ⟨d2, h3, h4⟩ | ⟨c2, h3, -⟩
            · rw [hs] at h3; subst h3
              cases hsc
              exact h4 a c' hc' hd
            · rw [hs] at h3; subst h3; cases hsc
        have ht : object (some (.obj dt)) = .ok dt := rfl
        rcases mergeAttrs_ok hma a with ⟨h1, h2⟩ | ⟨-, c', h1, h2⟩
        · rw [hc] at h2
          -- unchanged attribute
          rcases object_ok ho with ⟨-, h3⟩ | h3
          · rw [h3] at h2; cases h2
          · have h4 : Dict.get? d a = Dict.get? dt a := by
              rcases object_ok hf with ⟨h5, -⟩ | h5
              · -- an object cannot disappear
                rcases sf.persist.obj x d (hol.trans h3) with ⟨d2, h6, -⟩ | ⟨c2, h6, -⟩
                · rw [hfl, h5] at h6; cases h6
                · rw [hfl, h5] at h6; cases h6
              · rcases safe_attr hsafe htl (hfl.trans h5) (hol.trans h3) h1 with h6 | h6
                · rw [h6] at h2; cases h2
                · exact h6
            refine hIb _ (fun hI hb => ?_) (fun hI hb => ?_)
            · subst hb; exact key hI htl ht c (by rw [← h4, h2])
            · subst hb; exact key hI hfl hf c (by rw [← h1, ← h4, h2])
        · rw [hc] at h2; injection h2 with h2; subst h2
          refine ⟨merge_rel hP h1 htest ?_ ?_ (pers st.persist htl ht) (pers sf.persist hfl hf), ?_⟩
          · intro hb _ c' hc'; subst hb; exact (key st.inv htl ht c' hc').1
          · intro hb c' hc'; subst hb; exact (key sf.inv hfl hf c' hc').1
          · intro n hn
            rcases merge_occ h1 hn with h1 | ⟨c', h1, h2⟩ | ⟨c', h1, h2⟩ | ⟨c', h1, h2⟩
            · exact hscope n h1
            · exact (key st.inv htl ht c' h1).2 n h2
            · exact (key sf.inv hfl hf c' h1).2 n h2
            · exact (key hI0 hol ho c' h1).2 n h2
    · intro f k bs hf
      have hL : ¬ N.Local f := fun hl => by rw [hl.2.2] at hf; cases hf
      refine hIb _ (fun hI hb => ?_) (fun hI hb => ?_)
      · subst hb
        obtain ⟨l, h1, h2⟩ := hI.lams f k bs hf
        exact ⟨l, by rw [hframe f hL, ← st.frame f hL]; exact h1, h2⟩
      · subst hb
        obtain ⟨l, h1, h2⟩ := hI.lams f k bs hf
        exact ⟨l, by rw [hframe f hL, ← sf.frame f hL]; exact h1, h2⟩
    · rw [hmd]; exact hI0.modes
    · exact hI0.copy
    · exact hI0.copyB
  · -- asserts
    obtain ⟨nt, pt, at'⟩ := st.asserts
    obtain ⟨nf, pf, af⟩ := sf.asserts
    refine ⟨nt.map (fun k => (k.1 ++ [test], k.2)) ++ nf.map (fun k => (k.1 ++ [.unary .not test], k.2)), ?_, ?_⟩
    · rw [has]
      simp only [mergeAssert, List.map_append, List.map_map]
      refine List.Perm.append (List.Perm.append ?_ ?_) (List.Perm.refl _)
      · have := (new_keys pt).map (fun k => (k.1 ++ [test], k.2))
        rw [List.map_map] at this
        exact this
      · have := (new_keys pf).map (fun k => (k.1 ++ [Expr.unary .not test], k.2))
        rw [List.map_map] at this
        exact this
    · intro hno
      have hnt : ∀ k ∈ nt, ¬ KeyOpq k := by
        intro k hk ho
        refine hno (k.1 ++ [test], k.2) (by simp only [List.mem_append, List.mem_map]; exact .inl ⟨k, hk, rfl⟩) ?_
        rcases ho with ⟨p, hp, ho⟩ | ho
        · exact .inl ⟨p, by simp [hp], ho⟩
        · exact .inr ho
      have hnf : ∀ k ∈ nf, ¬ KeyOpq k := by
        intro k hk ho
        refine hno (k.1 ++ [.unary .not test], k.2) (by simp only [List.mem_append, List.mem_map]; exact .inr ⟨k, hk, rfl⟩) ?_
        rcases ho with ⟨p, hp, ho⟩ | ho
        · exact .inl ⟨p, by simp [hp], ho⟩
        · exact .inr ho
      have hto : (nt ≠ [] ∨ nf ≠ []) → P.truth (eval P ν test) = b := by
        intro hne
        refine htest.resolve_left (fun ho => ?_)
        rcases hne with hne | hne
        · obtain ⟨k, hk⟩ := List.exists_mem_of_ne_nil _ hne
          exact hno (k.1 ++ [test], k.2) (by simp only [List.mem_append, List.mem_map]; exact .inl ⟨k, hk, rfl⟩)
            (.inl ⟨test, by simp, ho⟩)
        · obtain ⟨k, hk⟩ := List.exists_mem_of_ne_nil _ hne
          exact hno (k.1 ++ [.unary .not test], k.2) (by simp only [List.mem_append, List.mem_map]; exact .inr ⟨k, hk, rfl⟩)
            (.inl ⟨.unary .not test, by simp, by simpa [hasOpaque] using ho⟩)
      have hT := at' hnt
      have hF := af hnf
      have hnot : P.truth (eval P ν (.unary .not test)) = !P.truth (eval P ν test) := by
        simp only [eval, hP.truth_ofBool]
      constructor
      · intro hfail
        cases b with
        | true =>
          obtain ⟨k, hk, hkf⟩ := hT.1 hfail
          refine ⟨(k.1 ++ [test], k.2), by simp only [List.mem_append, List.mem_map]; exact .inl ⟨k, hk, rfl⟩, ?_, hkf.2⟩
          intro p hp
          simp only [List.mem_append, List.mem_singleton] at hp
          rcases hp with hp | rfl
          · exact hkf.1 p hp
          · exact hto (.inl (List.ne_nil_of_mem hk))
        | false =>
          obtain ⟨k, hk, hkf⟩ := hF.1 hfail
          refine ⟨(k.1 ++ [.unary .not test], k.2), by simp only [List.mem_append, List.mem_map]; exact .inr ⟨k, hk, rfl⟩, ?_, hkf.2⟩
          intro p hp
          simp only [List.mem_append, List.mem_singleton] at hp
          rcases hp with hp | rfl
          · exact hkf.1 p hp
          · rw [hnot, hto (.inr (List.ne_nil_of_mem hk))]; rfl
      · rintro ⟨k', hk', hkf⟩
        simp only [List.mem_append, List.mem_map] at hk'
        rcases hk' with ⟨k, hk, rfl⟩ | ⟨k, hk, rfl⟩
        · have hb := hto (.inl (List.ne_nil_of_mem hk))
          rw [hkf.1 test (by simp)] at hb
          subst hb
          exact hT.2 ⟨k, hk, fun p hp => hkf.1 p (by simp [hp]), hkf.2⟩
        · have hb := hto (.inr (List.ne_nil_of_mem hk))
          have h2 := hkf.1 (.unary .not test) (by simp)
          rw [hnot, hb] at h2
          have hb' : b = false := by simpa using h2
          subst hb'
          exact hF.2 ⟨k, hk, fun p hp => hkf.1 p (by simp [hp]), hkf.2⟩

/-! ### the main theorem on statements -/

omit [DecidableEq V] in
theorem Step.refl {P : PyOps V} {N : Names} {ν σ : Store V} {env : Env V} (hI : Inv P N env ν σ) : Step P N ν env env σ false :=
  ⟨hI, Persist.refl env, fun _ _ => rfl, [], List.Perm.refl _, fun _ => by simp⟩

omit [DecidableEq V] in
theorem Step.trans {P : PyOps V} {N : Names} {ν σ' σ'' : Store V} {a b c : Env V} {f g : Bool} (h1 : Step P N ν a b σ' f)
    (h2 : Step P N ν b c σ'' g) : Step P N ν a c σ'' (f || g) := by
  obtain ⟨n1, p1, a1⟩ := h1.asserts
  obtain ⟨n2, p2, a2⟩ := h2.asserts
  refine ⟨h2.inv, h1.persist.trans h2.persist, fun n hn => (h2.frame n hn).trans (h1.frame n hn), n2 ++ n1, ?_, ?_⟩
  · rw [List.append_assoc]
    exact p2.trans (p1.append_left n2)
  · intro hno
    have b1 := a1 (fun k hk => hno k (by simp [hk]))
    have b2 := a2 (fun k hk => hno k (by simp [hk]))
    rw [Bool.or_eq_true, b1, b2]
    simp only [List.mem_append]
    constructor
    · rintro (⟨k, hk, h⟩ | ⟨k, hk, h⟩)
      · exact ⟨k, .inr hk, h⟩
      · exact ⟨k, .inl hk, h⟩
    · rintro ⟨k, hk | hk, h⟩
      · exact .inr ⟨k, hk, h⟩
      · exact .inl ⟨k, hk, h⟩

omit [DecidableEq V] in
theorem setAttr_step {P : PyOps V} (hP : P.Lawful) {N : Names} {ν σ : Store V} {env env' : Env V} {x a : String} {e : Expr V} {v : V}
    (hx : N.Local x) (hI : Inv P N env ν σ) (hr : Res P N.B ν (some (.cell (.ast e))) v)
    (h : setAttr env x a (.ast e) = .ok env') :
    Step P N ν env env' (upd σ x (P.setattr (σ x) a v)) false := by
  have key : ∀ d : Dict String (Cell V), (∀ b c, Dict.get? d b = some c →
      CellRel P ν c (P.getattr (σ x) b) ∧ ∀ n, occCell n c → ¬ N.B n) →
      Res P N.B ν (some (.obj (Dict.set d a (.ast e)))) (P.setattr (σ x) a v) := by
    intro d hd
    constructor
    · intro c hc; injection hc with hc; cases hc
    · intro d' b c hd' hc
      injection hd' with hd'; injection hd' with hd'; subst hd'
      rw [Dict.get?_set] at hc
      rw [hP.get_set]
      by_cases hab : a = b
      · rw [if_pos hab] at hc ⊢
        injection hc with hc; subst hc
        exact hr.cell _ rfl
      · rw [if_neg hab] at hc ⊢
        exact hd b c hc
  unfold setAttr at h
  split at h
  · rename_i hl
    injection h with h; subst h
    exact step_of_set hI hx (key [] (by simp [Dict.get?])) (persist_setObj env x (by simp [hl]) (by simp [hl]))
  · rename_i d hl
    injection h with h; subst h
    refine step_of_set hI hx (key d (fun b c hc => hI.objs x d b c hl hc)) (persist_setObj env x (by simp [hl]) ?_)
    intro d2 hd2 b c hc hdf
    rw [hl] at hd2; injection hd2 with hd2; injection hd2 with hd2; subst hd2
    rw [Dict.get?_set]
    split
    · exact ⟨_, rfl, dflt_ast e⟩
    · exact ⟨c, hc, hdf⟩
  · cases h

mutual
theorem procS_ok {P : PyOps V} (hP : P.Lawful) {N : Names} {ν : Store V} : (s : Stmt V) → {env env' : Env V} → {σ : Store V} →
    StaticS N s → noTwin P.zero env s = true → Inv P N env ν σ → procS P.zero env s = .ok env' →
    Step P N ν env env' (run P σ s) (fails P σ s)
  | .assign x e, env, env', σ, hs, _, hI, h => by
    simp only [StaticS] at hs
    rw [procS] at h
    obtain ⟨⟨v, env1⟩, h1, h2⟩ := (bind_ok_iff ..).1 h
    obtain ⟨rfl, hr⟩ := procV_ok hP e hs.2.1 hI h1
    obtain ⟨e', rfl, hne⟩ := plain_ast hs.2.1 hs.2.2 hI h1
    simp only at h2
    rw [assignName_ast _ _ hne] at h2
    injection h2 with h2; subst h2
    simp only [run, fails]
    exact step_of_set hI hs.1 hr (persist_setCell _ _ (dflt_ast e'))
  | .setattr x a e, env, env', σ, hs, _, hI, h => by
    simp only [StaticS] at hs
    rw [procS] at h
    have hex : ∃ env0, (if (env.lookup x).isNone then env.set x (.obj []) else env) = env0 ∧ Step P N ν env env0 σ false := by
      split
      · rename_i hn
        have hl : env.lookup x = none := by simpa using hn
        have hr : Res P N.B ν (some (SV.obj (V := V) [])) (σ x) :=
          ⟨fun c hc => (by injection hc with hc; cases hc),
            fun d a c hd hc => (by injection hd with hd; injection hd with hd; subst hd; simp [Dict.get?] at hc)⟩
        have := step_of_set hI hs.1 hr (persist_setObj env x (by simp [hl]) (by simp [hl]))
        rw [upd_self] at this
        exact ⟨_, rfl, this⟩
      · exact ⟨_, rfl, Step.refl hI⟩
    obtain ⟨env0, he0, s0⟩ := hex
    simp only [he0] at h
    obtain ⟨⟨v, env1⟩, h1, h2⟩ := (bind_ok_iff ..).1 h
    obtain ⟨rfl, hr⟩ := procV_ok hP e hs.2.1 s0.inv h1
    obtain ⟨e', rfl, hne⟩ := plain_ast hs.2.1 hs.2.2 s0.inv h1
    simp only [attrCell, bind, Except.bind] at h2
    simp only [run, fails]
    exact s0.trans (setAttr_step hP hs.1 s0.inv hr h2)
  | .ite t b o, env, env', σ, hs, hn, hI, h => by
    simp only [StaticS] at hs
    rw [procS] at h
    obtain ⟨⟨v, env1⟩, h1, h2⟩ := (bind_ok_iff ..).1 h
    obtain ⟨rfl, hr⟩ := procV_ok hP t hs.1 hI h1
    obtain ⟨et, h3, h4⟩ := (bind_ok_iff ..).1 h2
    obtain ⟨ef, h5, h6⟩ := (bind_ok_iff ..).1 h4
    rw [noTwin, h1] at hn
    simp only [Bool.and_eq_true] at hn h3 h5
    rw [h3, h5] at hn
    have st := procSs_ok hP b hs.2.1 hn.1.1 hI h3
    have sf := procSs_ok hP o hs.2.2 hn.1.2 hI h5
    obtain ⟨r1, r2⟩ := hr.toExpr
    have := merge_step (b := P.truth (eval P σ t)) hP hn.2 (r1.imp id (fun h => by rw [h])) r2 st sf h6 hI
    simp only [run, fails]
    exact this
  | .assert c l, env, env', σ, hs, _, hI, h => by
    simp only [StaticS] at hs
    rw [procS] at h
    obtain ⟨⟨v, env1⟩, h1, h2⟩ := (bind_ok_iff ..).1 h
    obtain ⟨rfl, hr⟩ := procV_ok hP c hs hI h1
    injection h2 with h2; subst h2
    obtain ⟨r1, r2⟩ := hr.toExpr
    simp only [run, fails]
    refine ⟨⟨hI.input, hI.fresh, hI.cells, hI.objs, hI.lams, hI.modes, hI.copy, hI.copyB⟩, ⟨(Persist.refl _).cell, (Persist.refl _).obj⟩,
      fun _ _ => rfl, [([], toExpr v)], ?_, ?_⟩
    · simp only [List.map_append, List.map_cons, List.map_nil, PAssert.key]
      exact List.perm_append_comm
    · intro hno
      have : ¬ hasOpaque (toExpr v) = true := fun ho => hno ([], toExpr v) (by simp) (.inr ho)
      have hv := r1.resolve_left this
      simp [KeyFails, hv]
theorem procSs_ok {P : PyOps V} (hP : P.Lawful) {N : Names} {ν : Store V} : (ss : List (Stmt V)) → {env env' : Env V} →
    {σ : Store V} → StaticSs N ss → noTwins P.zero env ss = true → Inv P N env ν σ → procSs P.zero env ss = .ok env' →
    Step P N ν env env' (runs P σ ss) (failss P σ ss)
  | [], env, env', σ, _, _, hI, h => by
    rw [procSs] at h
    injection h with h; subst h
    simp only [runs, failss]; exact Step.refl hI
  | s :: ss, env, env', σ, hs, hn, hI, h => by
    simp only [StaticSs] at hs
    rw [procSs] at h
    obtain ⟨env1, h1, h2⟩ := (bind_ok_iff ..).1 h
    rw [noTwins, h1] at hn
    simp only [Bool.and_eq_true] at hn
    have s1 := procS_ok hP s hs.1 hn.1 hI h1
    have s2 := procSs_ok hP ss hs.2 hn.2 s1.inv h2
    simp only [runs, failss]
    exact s1.trans s2
end

end main

end Verif.Py
