import Verif.Proofs.Parser2
import Verif.Spec.NoTwin
import Mathlib.Data.List.Perm.Basic

/-! `proc` on statements agrees with Python's execution. -/

set_option autoImplicit false

namespace Verif.Py

variable {V : Type}

/-! ### execution without exceptions -/

mutual
/-- the store after the statement, if asserts are skipped -/
def run (P : PyOps V) (σ : Store V) : Stmt V → Store V
  | .assign x e => upd σ x (eval P σ e)
  | .setattr x a e => upd σ x (P.setattr (σ x) a (eval P σ e))
  | .ite t b o => if P.truth (eval P σ t) then runs P σ b else runs P σ o
  | .assert _ _ => σ
def runs (P : PyOps V) (σ : Store V) : List (Stmt V) → Store V
  | [] => σ
  | s :: ss => runs P (run P σ s) ss
end

mutual
/-- some assert on the way is false -/
def fails (P : PyOps V) (σ : Store V) : Stmt V → Bool
  | .assign _ _ => false
  | .setattr _ _ _ => false
  | .ite t b o => if P.truth (eval P σ t) then failss P σ b else failss P σ o
  | .assert c _ => !P.truth (eval P σ c)
def failss (P : PyOps V) (σ : Store V) : List (Stmt V) → Bool
  | [] => false
  | s :: ss => fails P σ s || failss P (run P σ s) ss
end

mutual
theorem exec_eq (P : PyOps V) (σ : Store V) : (s : Stmt V) →
    exec P σ s = if fails P σ s then .error () else .ok (run P σ s)
  | .assign x e => by simp [exec, fails, run]
  | .setattr x a e => by simp [exec, fails, run]
  | .ite t b o => by
    simp only [exec, fails, run]
    split
    · exact execs_eq P σ b
    · exact execs_eq P σ o
  | .assert c l => by
    simp only [exec, fails, run]
    by_cases h : P.truth (eval P σ c) = true <;> simp [h]
theorem execs_eq (P : PyOps V) (σ : Store V) : (ss : List (Stmt V)) →
    execs P σ ss = if failss P σ ss then .error () else .ok (runs P σ ss)
  | [] => by simp [execs, failss, runs]
  | s :: ss => by
    simp only [execs, failss, runs]
    rw [exec_eq P σ s]
    by_cases h : fails P σ s = true
    · simp [h, Except.bind]
    · rw [if_neg h]
      simp only [Bool.not_eq_true] at h
      simp only [h, Except.bind, Bool.false_or]; exact execs_eq P _ ss
end

/-! ### dictionaries -/

/-- A fold over distinct keys that changes one key at a time. -/
theorem foldlM_keys {D K α ε : Type} [DecidableEq K] (step : D → K → Except ε D) (get : D → K → Option α)
    (R : K → Option α → Option α → Prop)
    (hstep : ∀ d k d', step d k = .ok d' → R k (get d k) (get d' k) ∧ ∀ k', k' ≠ k → get d' k' = get d k') :
    ∀ (l : List K) (d d' : D), l.Nodup → l.foldlM step d = .ok d' →
    (∀ k ∈ l, R k (get d k) (get d' k)) ∧ (∀ k, k ∉ l → get d' k = get d k) := by
  intro l
  induction l with
  | nil => intro d d' _ h; simp only [List.foldlM_nil] at h; cases h; simp
  | cons a l ih =>
    intro d d' hn h
    obtain ⟨d1, h1, h2⟩ := (foldlM_cons_ok ..).1 h
    obtain ⟨ha, hn⟩ := List.nodup_cons.1 hn
    obtain ⟨i1, i2⟩ := ih d1 d' hn h2
    obtain ⟨s1, s2⟩ := hstep d a d1 h1
    constructor
    · intro k hk
      rcases List.mem_cons.1 hk with rfl | hk
      · rw [i2 k ha]; exact s1
      · have hne : k ≠ a := fun e => ha (e ▸ hk)
        rw [← s2 k hne]; exact i1 k hk
    · intro k hk
      simp only [List.mem_cons, not_or] at hk
      rw [i2 k hk.2, s2 k hk.1]

theorem lookup_set (env : Env V) (x : String) (v : SV V) (k : String) :
    (env.set x v).lookup k = if x = k then some v else env.lookup k := Dict.get?_set ..

/-! ### merging -/

section merge
variable [DecidableEq V]

theorem mem_eraseCases (orig cs : List (Case V)) (k : Case V) (h : k ∈ cs) : k ∈ eraseCases orig cs ∨ k ∈ orig := by
  unfold eraseCases
  induction orig generalizing cs with
  | nil => exact .inl h
  | cons o orig ih =>
    simp only [List.foldl_cons]
    by_cases hk : k = o
    · subst hk; right; simp
    · rcases ih (cs.erase o) ((List.mem_erase_of_ne hk).2 h) with h | h
      · exact .inl h
      · exact .inr (by simp [h])

theorem eraseCases_sub (orig cs : List (Case V)) (k : Case V) (h : k ∈ eraseCases orig cs) : k ∈ cs := by
  unfold eraseCases at h
  induction orig generalizing cs with
  | nil => exact h
  | cons o orig ih => exact List.mem_of_mem_erase (ih _ h)

/-- the cases of an optional value -/
def casesOf (c : Option (Cell V)) : List (Case V) := (c.map Cell.asCases).getD []

theorem mergeIfVal_ok {test : Expr V} {t f o : Option (Cell V)} {c : Cell V} (h : mergeIfVal test t f o = .ok c) :
    c = .cond (addCond test (eraseCases (casesOf o) (casesOf t)) ++
      addCond (.unary .not test) (eraseCases (casesOf o) (casesOf f)) ++ casesOf o) ∧
    (eraseCases (casesOf o) (casesOf t) ≠ [] ∨ eraseCases (casesOf o) (casesOf f) ≠ []) := by
  unfold mergeIfVal at h
  simp only at h
  split at h
  · cases h
  · rename_i hne
    injection h with h
    refine ⟨h.symm, ?_⟩
    simp only [Bool.and_eq_true, List.isEmpty_iff, not_and_or] at hne
    exact hne

omit [DecidableEq V] in
theorem mem_addCond {test : Expr V} {cs : List (Case V)} {k : Case V} :
    k ∈ addCond test cs ↔ ∃ k' ∈ cs, k = { k' with conds := k'.conds ++ [test] } := by
  simp [addCond, eq_comm]

theorem merge_dflt {test : Expr V} {t f o : Option (Cell V)} {c : Cell V} (h : mergeIfVal test t f o = .ok c) {k : Case V}
    (hk : k ∈ c.asCases) (hd : k.conds = []) : k ∈ casesOf o := by
  obtain ⟨rfl, -⟩ := mergeIfVal_ok h
  simp only [Cell.asCases, List.mem_append, mem_addCond] at hk
  rcases hk with (⟨k', -, rfl⟩ | ⟨k', -, rfl⟩) | hk
  · simp at hd
  · simp at hd
  · exact hk

theorem merge_occ {test : Expr V} {t f o : Option (Cell V)} {c : Cell V} (h : mergeIfVal test t f o = .ok c) {n : String}
    (hn : occCell n c) : occurs n test = true ∨ (∃ c', t = some c' ∧ occCell n c') ∨ (∃ c', f = some c' ∧ occCell n c') ∨
      (∃ c', o = some c' ∧ occCell n c') := by
  obtain ⟨rfl, -⟩ := mergeIfVal_ok h
  obtain ⟨k, hk, hn⟩ := hn
  have key : ∀ (x : Option (Cell V)) (k : Case V), k ∈ casesOf x →
      ((∃ e ∈ k.conds, occurs n e = true) ∨ occurs n k.val = true) → ∃ c', x = some c' ∧ occCell n c' := by
    intro x k hk hn
    cases x with
    | none => simp [casesOf] at hk
    | some c' => exact ⟨c', rfl, k, by simpa [casesOf] using hk, hn⟩
  simp only [Cell.asCases, List.mem_append, mem_addCond] at hk
  rcases hk with (⟨k', hk', rfl⟩ | ⟨k', hk', rfl⟩) | hk
  · simp only [List.mem_append, List.mem_singleton] at hn
    rcases hn with ⟨e, he | rfl, ho⟩ | hn
    · exact .inr (.inl (key t k' (eraseCases_sub _ _ _ hk') (.inl ⟨e, he, ho⟩)))
    · exact .inl ho
    · exact .inr (.inl (key t k' (eraseCases_sub _ _ _ hk') (.inr hn)))
  · simp only [List.mem_append, List.mem_singleton] at hn
    rcases hn with ⟨e, he | rfl, ho⟩ | hn
    · exact .inr (.inr (.inl (key f k' (eraseCases_sub _ _ _ hk') (.inl ⟨e, he, ho⟩))))
    · exact .inl (by simpa [occurs] using ho)
    · exact .inr (.inr (.inl (key f k' (eraseCases_sub _ _ _ hk') (.inr hn))))
  · exact .inr (.inr (.inr (key o k hk hn)))

/-- The merged value covers the value of the branch that is taken. -/
theorem merge_rel {P : PyOps V} (hP : P.Lawful) {ν : Store V} {test : Expr V} {t f o : Option (Cell V)} {c : Cell V}
    (h : mergeIfVal test t f o = .ok c) {b : Bool} (htest : hasOpaque test = true ∨ P.truth (eval P ν test) = b) {v : V}
    (ht : b = true → (∀ c', o = some c' → Dflt c' → ∃ c'', t = some c'' ∧ Dflt c'') → ∀ c', t = some c' → CellRel P ν c' v)
    (hf : b = false → ∀ c', f = some c' → CellRel P ν c' v)
    (hpt : ∀ c', o = some c' → Dflt c' → ∃ c'', t = some c'' ∧ Dflt c'')
    (hpf : ∀ c', o = some c' → Dflt c' → ∃ c'', f = some c'' ∧ Dflt c'') : CellRel P ν c v := by
  intro hd
  obtain ⟨kd, hkd, hkd0⟩ := hd
  have hod := merge_dflt h hkd hkd0
  obtain ⟨co, hco, hcod⟩ : ∃ co, o = some co ∧ Dflt co := by
    cases o with
    | none => simp [casesOf] at hod
    | some co => exact ⟨co, rfl, kd, by simpa [casesOf] using hod, hkd0⟩
  obtain ⟨rfl, hne⟩ := mergeIfVal_ok h
  rcases htest with hop | htest
  · -- the test cannot be compiled: neither can the new cases
    rcases hne with hne | hne
    · obtain ⟨k, hk⟩ := List.exists_mem_of_ne_nil _ hne
      refine ⟨{ k with conds := k.conds ++ [test] }, ?_, .inl (.inl ⟨test, by simp, hop⟩)⟩
      simp only [Cell.asCases, List.mem_append, mem_addCond]
      exact .inl (.inl ⟨k, hk, rfl⟩)
    · obtain ⟨k, hk⟩ := List.exists_mem_of_ne_nil _ hne
      refine ⟨{ k with conds := k.conds ++ [.unary .not test] }, ?_, .inl (.inl ⟨.unary .not test, by simp, by simpa [hasOpaque] using hop⟩)⟩
      simp only [Cell.asCases, List.mem_append, mem_addCond]
      exact .inl (.inr ⟨k, hk, rfl⟩)
  · cases b with
    | true =>
      obtain ⟨ct, hct, hctd⟩ := hpt co hco hcod
      obtain ⟨k, hk, hkr⟩ := ht rfl hpt ct hct hctd
      rcases mem_eraseCases (casesOf o) (casesOf t) k (by simpa [casesOf, hct] using hk) with hk' | hk'
      · refine ⟨{ k with conds := k.conds ++ [test] }, ?_, ?_⟩
        · simp only [Cell.asCases, List.mem_append, mem_addCond]
          exact .inl (.inl ⟨k, hk', rfl⟩)
        · rcases hkr with hkr | hkr
          · left
            rcases hkr with ⟨e, he, ho⟩ | ho
            · exact .inl ⟨e, by simp [he], ho⟩
            · exact .inr ho
          · right
            refine ⟨?_, hkr.2⟩
            intro e he
            simp only [List.mem_append, List.mem_singleton] at he
            rcases he with he | rfl
            · exact hkr.1 e he
            · exact htest
      · refine ⟨k, ?_, hkr⟩
        simp only [Cell.asCases, List.mem_append]
        exact .inr hk'
    | false =>
      obtain ⟨cf, hcf, hcfd⟩ := hpf co hco hcod
      obtain ⟨k, hk, hkr⟩ := hf rfl cf hcf hcfd
      rcases mem_eraseCases (casesOf o) (casesOf f) k (by simpa [casesOf, hcf] using hk) with hk' | hk'
      · refine ⟨{ k with conds := k.conds ++ [.unary .not test] }, ?_, ?_⟩
        · simp only [Cell.asCases, List.mem_append, mem_addCond]
          exact .inl (.inr ⟨k, hk', rfl⟩)
        · rcases hkr with hkr | hkr
          · left
            rcases hkr with ⟨e, he, ho⟩ | ho
            · exact .inl ⟨e, by simp [he], ho⟩
            · exact .inr ho
          · right
            refine ⟨?_, hkr.2⟩
            intro e he
            simp only [List.mem_append, List.mem_singleton] at he
            rcases he with he | rfl
            · exact hkr.1 e he
            · simp only [eval, hP.truth_ofBool, htest]; rfl
      · refine ⟨k, ?_, hkr⟩
        simp only [Cell.asCases, List.mem_append]
        exact .inr hk'

/-- What `mergeAttrs` does to each attribute. -/
theorem mergeAttrs_ok {test : Expr V} {t f d d' : Dict String (Cell V)} (h : mergeAttrs test t f d = .ok d') (a : String) :
    (Dict.get? t a = Dict.get? f a ∧ Dict.get? d' a = Dict.get? d a) ∨
    (Dict.get? t a ≠ Dict.get? f a ∧ ∃ c, mergeIfVal test (Dict.get? t a) (Dict.get? f a) (Dict.get? d a) = .ok c ∧
      Dict.get? d' a = some c) := by
  unfold mergeAttrs at h
  obtain ⟨h1, h2⟩ := foldlM_keys (get := fun d a => Dict.get? d a)
    (R := fun a x y => (Dict.get? t a = Dict.get? f a ∧ y = x) ∨
      (Dict.get? t a ≠ Dict.get? f a ∧ ∃ c, mergeIfVal test (Dict.get? t a) (Dict.get? f a) x = .ok c ∧ y = some c))
    _ (by
      intro d k d' hs
      split at hs
      · rename_i he
        cases hs
        exact ⟨.inl ⟨he, rfl⟩, fun _ _ => rfl⟩
      · rename_i he
        obtain ⟨c, hc, rfl⟩ := (map_ok_iff ..).1 hs
        refine ⟨.inr ⟨he, c, hc, Dict.get?_set_self ..⟩, fun k' hk' => Dict.get?_set_ne _ _ _ _ (fun e => hk' e.symm)⟩) _ _ _
    (List.nodup_dedup _) h
  by_cases ha : a ∈ (t.keys ++ f.keys).dedup
  · exact h1 a ha
  · left
    refine ⟨?_, h2 a ha⟩
    simp only [List.mem_dedup, List.mem_append, not_or] at ha
    have h3 := (Dict.get?_none_iff t a).2 ha.1
    have h4 := (Dict.get?_none_iff f a).2 ha.2
    rw [h3, h4]

/-- The result of merging one variable. -/
inductive MergedVar (test : Expr V) : (t f o r : Option (SV V)) → Prop where
  | same {t o : Option (SV V)} : MergedVar test t t o o
  | obj {dt df d d' : Dict String (Cell V)} {f o : Option (SV V)} (hne : some (.obj dt) ≠ f) (hf : object f = .ok df)
      (ho : object o = .ok d) (h : mergeAttrs test dt df d = .ok d') : MergedVar test (some (.obj dt)) f o (some (.obj d'))
  | cell {t f o : Option (SV V)} {ct cf co : Option (Cell V)} {c : Cell V} (hne : t ≠ f) (hto : isObj t = false)
      (ht : scalar t = .ok ct) (hf : scalar f = .ok cf) (ho : scalar o = .ok co) (h : mergeIfVal test ct cf co = .ok c) :
      MergedVar test t f o (some (.cell c))

theorem mergeVar_ok {test : Expr V} {x : String} {t f : Option (SV V)} {env env' : Env V}
    (h : mergeVar test x t f env = .ok env') :
    MergedVar test t f (env.lookup x) (env'.lookup x) ∧ (∀ k, k ≠ x → env'.lookup k = env.lookup k) ∧
    env'.stateDefs = env.stateDefs ∧ env'.modeDefs = env.modeDefs := by
  unfold mergeVar at h
  split at h
  · rename_i he; cases h; subst he; exact ⟨.same, fun _ _ => rfl, rfl, rfl⟩
  · rename_i he
    split at h
    · rename_i hobj
      match t, hobj with
      | some (.obj dt), _ =>
        obtain ⟨dt', h1, h⟩ := (bind_ok_iff ..).1 h
        have h1 : dt = dt' := by simpa [object] using h1
        subst h1
        obtain ⟨df, h2, h⟩ := (bind_ok_iff ..).1 h
        obtain ⟨d, h3, h⟩ := (bind_ok_iff ..).1 h
        obtain ⟨d', h4, h⟩ := (bind_ok_iff ..).1 h
        injection h with h
        subst h
        refine ⟨?_, fun k hk => ?_, rfl, rfl⟩
        · rw [lookup_set, if_pos rfl]; exact .obj he h2 h3 h4
        · rw [lookup_set, if_neg (fun e => hk e.symm)]
    · rename_i hobj
      obtain ⟨ct, h1, h⟩ := (bind_ok_iff ..).1 h
      obtain ⟨cf, h2, h⟩ := (bind_ok_iff ..).1 h
      obtain ⟨co, h3, h⟩ := (bind_ok_iff ..).1 h
      obtain ⟨c, h4, h⟩ := (bind_ok_iff ..).1 h
      cases h
      refine ⟨?_, fun k hk => ?_, rfl, rfl⟩
      · rw [lookup_set, if_pos rfl]; exact .cell he (by simpa using hobj) h1 h2 h3 h4
      · rw [lookup_set, if_neg (fun e => hk e.symm)]

/-- What `mergeIf` does to each variable. -/
theorem mergeIf_ok {test : Expr V} {et ef env env' : Env V} (h : mergeIf test et ef env = .ok env') :
    (∀ x, MergedVar test (et.lookup x) (ef.lookup x) (env.lookup x) (env'.lookup x)) ∧
    env'.stateDefs = env.stateDefs ∧ env'.modeDefs = env.modeDefs ∧
    env'.asserts = mergeAssert test et.asserts ef.asserts env.asserts := by
  unfold mergeIf at h
  obtain ⟨e1, h1, h2⟩ := (bind_ok_iff ..).1 h
  cases h2
  obtain ⟨h3, h4⟩ := foldlM_keys (get := fun e x => Env.lookup e x)
    (R := fun x o r => MergedVar test (et.lookup x) (ef.lookup x) o r)
    _ (by
      intro d k d' hs
      obtain ⟨a, b, _⟩ := mergeVar_ok hs
      exact ⟨a, b⟩) _ _ _ (List.nodup_dedup _) h1
  have hdefs := foldlM_inv (P := fun e : Env V => e.stateDefs = env.stateDefs ∧ e.modeDefs = env.modeDefs) h1 ⟨rfl, rfl⟩ (by
    intro b a b' _ hb hs
    obtain ⟨_, _, c, d⟩ := mergeVar_ok hs
    exact ⟨c.trans hb.1, d.trans hb.2⟩)
  refine ⟨fun x => ?_, hdefs.1, hdefs.2, rfl⟩
  show MergedVar test (et.lookup x) (ef.lookup x) (env.lookup x) (e1.lookup x)
  by_cases hx : x ∈ (et.vars.keys ++ ef.vars.keys).dedup
  · exact h3 x hx
  · rw [h4 x hx]
    simp only [List.mem_dedup, List.mem_append, not_or] at hx
    have a1 : et.lookup x = none := (Dict.get?_none_iff _ _).2 hx.1
    have a2 : ef.lookup x = none := (Dict.get?_none_iff _ _).2 hx.2
    rw [a1, a2]; exact .same

end merge

end Verif.Py
