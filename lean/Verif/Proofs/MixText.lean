import Verif.Spec.MixText
import Verif.Proofs.Basic
import Verif.Props.MixMono

/-! Proofs for C98. -/

set_option autoImplicit false
set_option linter.unusedSectionVars false

namespace Verif.MixT
open Verif.Mix Verif.Props

variable {K : Type}

/-! ### dictionaries -/

theorem foldl_set_not_mem (l : List (String × (K × K))) (d : Dict String (K × K)) (n : String) (h : n ∉ l.map Prod.fst) :
    Dict.get? (l.foldl (fun d p => Dict.set d p.1 p.2) d) n = Dict.get? d n := by
  induction l generalizing d with
  | nil => rfl
  | cons p l ih =>
    simp only [List.map_cons, List.mem_cons, not_or] at h
    rw [List.foldl_cons, ih _ h.2, Dict.get?_set_ne _ _ _ _ (fun e => h.1 e.symm)]

theorem foldl_set_mem (l : List (String × (K × K))) (d : Dict String (K × K)) (hn : (l.map Prod.fst).Nodup) (p : String × (K × K)) (h : p ∈ l) :
    Dict.get? (l.foldl (fun d p => Dict.set d p.1 p.2) d) p.1 = some p.2 := by
  induction l generalizing d with
  | nil => cases h
  | cons q l ih =>
    rw [List.map_cons, List.nodup_cons] at hn
    rw [List.foldl_cons]
    rcases List.mem_cons.1 h with rfl | h
    · rw [foldl_set_not_mem _ _ _ hn.1, Dict.get?_set_self]
    · exact ih _ hn.2 h

/-! ### values -/

variable [Field K]

theorem val_congr (ρ ρ' : String → K) (e : Ex K) (h : ∀ n ∈ names e, ρ n = ρ' n) : val ρ e = val ρ' e := by
  induction e with
  | num k => rfl
  | var n => exact h n (by simp [names])
  | neg e ih => simp only [val, ih h]
  | add a b iha ihb | sub a b iha ihb | mul a b iha ihb | div a b iha ihb =>
    simp only [names, List.mem_append] at h
    simp only [val, iha fun n hn => h n (.inl hn), ihb fun n hn => h n (.inr hn)]
  | pow a n ih => simp only [val, ih h]

theorem val_subst (ρ : String → K) (x : String) (k : K) (e : Ex K) : val ρ (subst x k e) = val (fun n => if n = x then k else ρ n) e := by
  induction e with
  | num k => rfl
  | var n =>
    simp only [subst, val]
    split <;> rfl
  | neg e ih => simp only [val, subst, ih]
  | add a b iha ihb | sub a b iha ihb | mul a b iha ihb | div a b iha ihb => simp only [val, subst, iha, ihb]
  | pow a n ih => simp only [val, subst, ih]

theorem names_subst (x : String) (k : K) (e : Ex K) (n : String) : n ∈ names (subst x k e) → n ∈ names e ∧ n ≠ x := by
  induction e with
  | num k => simp [subst, names]
  | var m =>
    simp only [subst]
    split
    · simp [names]
    · rename_i h
      simp only [names, List.mem_singleton]
      rintro rfl
      exact ⟨rfl, h⟩
  | neg e ih => exact ih
  | add a b iha ihb | sub a b iha ihb | mul a b iha ihb | div a b iha ihb =>
    simp only [names, subst, List.mem_append]
    rintro (h | h)
    · exact ⟨.inl (iha h).1, (iha h).2⟩
    · exact ⟨.inr (ihb h).1, (ihb h).2⟩
  | pow a n ih => exact ih

theorem lookup_zip_map (vs : List String) (f : String → K) (n : String) (h : n ∈ vs) : (vs.zip (vs.map f)).lookup n = some (f n) := by
  induction vs with
  | nil => cases h
  | cons m vs ih =>
    rw [List.map_cons, List.zip_cons_cons, List.lookup_cons]
    by_cases e : n = m
    · subst e; simp
    · rw [beq_eq_false_iff_ne.2 e]
      exact ih ((List.mem_cons.1 h).resolve_left e)

/-- The compiled function, at the values of its symbols. -/
theorem lambdify_at (vs : List String) (e : Ex K) (f : String → K) (h : ∀ n ∈ names e, n ∈ vs) : lambdify vs e (vs.map f) = val f e := by
  unfold lambdify
  refine val_congr _ _ _ fun n hn => ?_
  rw [lookup_zip_map vs f n (h n hn)]
  rfl

variable [LinearOrder K]

theorem eval_congr (σ σ' : Store K) (e : Ex K) (h : ∀ n ∈ names e, σ n = σ' n) : eval σ e = eval σ' e := by
  induction e with
  | num k => rfl
  | var n => simp only [eval, h n (by simp [names])]
  | neg e ih => simp only [eval, ih h]
  | add a b iha ihb | sub a b iha ihb | mul a b iha ihb | div a b iha ihb =>
    simp only [names, List.mem_append] at h
    simp only [eval, iha fun n hn => h n (.inl hn), ihb fun n hn => h n (.inr hn)]
  | pow a n ih => simp only [eval, ih h]

/-! ### stores -/

theorem unpack_not_mem (ts : List String) (l : List K) (σ : Store K) (n : String) (h : n ∉ ts) : σ.unpack ts l n = σ n := by
  induction ts generalizing l σ with
  | nil => cases l <;> rfl
  | cons t ts ih =>
    simp only [List.mem_cons, not_or] at h
    cases l with
    | nil => rfl
    | cons v l =>
      rw [Store.unpack, ih _ _ h.2]
      simp [Store.set, h.1]

theorem unpack_mem (ts : List String) (l : List K) (σ : Store K) (hn : ts.Nodup) (i : Nat) (n : String) (v : K) (h1 : ts[i]? = some n) (h2 : l[i]? = some v) :
    σ.unpack ts l n = some (.num v) := by
  induction ts generalizing l σ i with
  | nil => simp at h1
  | cons t ts ih =>
    rw [List.nodup_cons] at hn
    cases l with
    | nil => simp at h2
    | cons w l =>
      cases i with
      | zero =>
        simp only [List.getElem?_cons_zero, Option.some.injEq] at h1 h2
        subst h1 h2
        rw [Store.unpack, unpack_not_mem _ _ _ _ hn.1]
        simp [Store.set]
      | succ i =>
        simp only [List.getElem?_cons_succ] at h1 h2
        exact ih _ _ hn.2 i h1 h2

/-- The block of assignments: every name has the value of its expression before the block. -/
theorem exec_block (ps : List String) (es : List (Ex K)) (σ : Store K) (rest : List (Stmt K)) (y : List K) (hn : ps.Nodup) (hl : ps.length = es.length)
    (huse : ∀ e ∈ es, ∀ n ∈ names e, n ∉ ps) (h : exec σ ((ps.zip es).map (fun p => Stmt.assign p.1 p.2) ++ rest) = some y) :
    ∃ vs, List.Forall₂ (fun e v => eval σ e = some v) es vs ∧ exec (σ.unpack ps vs) rest = some y := by
  induction ps generalizing es σ with
  | nil =>
    cases es with
    | nil => exact ⟨[], .nil, h⟩
    | cons e es => cases hl
  | cons p ps ih =>
    cases es with
    | nil => cases hl
    | cons e es =>
      rw [List.nodup_cons] at hn
      simp only [List.zip_cons_cons, List.map_cons, List.cons_append, exec, Option.bind_eq_some_iff] at h
      obtain ⟨k, hk, h⟩ := h
      obtain ⟨vs, h1, h2⟩ := ih es _ hn.2 (by simpa using hl) (fun e he n hm hp => huse e (List.mem_cons_of_mem _ he) n hm (List.mem_cons_of_mem _ hp)) h
      refine ⟨k :: vs, .cons hk ?_, h2⟩
      rw [List.forall₂_iff_get] at h1 ⊢
      refine ⟨h1.1, fun i a b => ?_⟩
      rw [← h1.2 i a b]
      refine eval_congr _ _ _ fun n hm => ?_
      have : n ≠ p := fun e => huse _ (List.mem_cons_of_mem _ (List.get_mem _ _)) n hm (by simp [e])
      simp [Store.set, this]

/-- `return [x1_plus, …]` -/
theorem ret_block (ps : List String) (vs : List K) (σ : Store K) (hn : ps.Nodup) (hl : ps.length = vs.length) :
    (ps.map (Ex.var (K := K))).mapM (eval (σ.unpack ps vs)) = some vs := by
  have : ∀ (qs : List String) (us : List K), List.Forall₂ (fun q u => eval (σ.unpack ps vs) (Ex.var (K := K) q) = some u) qs us →
      (qs.map (Ex.var (K := K))).mapM (eval (σ.unpack ps vs)) = some us := by
    intro qs us h
    induction h with
    | nil => rfl
    | cons h _ ih => simp only [List.map_cons, List.mapM_cons, h, ih]; rfl
  refine this _ _ ?_
  rw [List.forall₂_iff_get]
  refine ⟨hl, fun i h1 h2 => ?_⟩
  simp only [eval]
  rw [unpack_mem ps vs σ hn i _ (vs.get ⟨i, h2⟩) (by simp [List.getElem?_eq_getElem h1]) (by simp [List.getElem?_eq_getElem h2])]

/-! ### the extraction -/

theorem scan_block (l : List (String × Ex K)) (s : Acc K) (h : s.on = true) :
    (l.map fun p => Stmt.assign p.1 p.2).foldlM scan s = .ok { s with texts := s.texts ++ l.map Prod.snd } := by
  induction l generalizing s with
  | nil => simp only [List.map_nil, List.foldlM_nil, List.append_nil]; rfl
  | cons p l ih =>
    rw [List.map_cons, List.foldlM_cons]
    simp only [scan, h, if_true]
    show (List.map (fun p => Stmt.assign p.1 p.2) l).foldlM scan { on := true, texts := s.texts ++ [p.2], xs := s.xs, ws := s.ws } = _
    rw [ih _ rfl]
    simp

theorem extract_standard (ws xs ps : List String) (es : List (Ex K)) (h1 : ps.length = xs.length) (h2 : es.length = xs.length) :
    extract (standard ws xs ps es) = .ok ⟨true, es, xs, ws⟩ := by
  unfold extract standard
  rw [List.foldlM_append, List.foldlM_append]
  have e : ([.unpack (ws ++ ["dt"]) (.var "args"), .unpack xs (.var "x"), .text "Begin Dynamic"] : List (Stmt K)).foldlM scan ⟨false, [], [], []⟩ =
      .ok ⟨true, [], xs, ws⟩ := by
    simp only [List.foldlM_cons, List.foldlM_nil, scan, if_true, Bool.false_eq_true, if_false, List.nil_append, List.dropLast_concat]
    rfl
  rw [e]
  show ((((ps.zip es).map fun p => Stmt.assign p.1 p.2).foldlM scan ⟨true, [], xs, ws⟩).bind fun s => ([.text "End Dynamic", .ret (ps.map .var)] : List (Stmt K)).foldlM scan s).bind _ = _
  rw [scan_block _ _ rfl]
  have e2 : (ps.zip es).map Prod.snd = es := List.map_snd_zip (by omega)
  rw [e2]
  show (([.text "End Dynamic", .ret (ps.map .var)] : List (Stmt K)).foldlM scan ⟨true, [] ++ es, xs, ws⟩).bind _ = _
  simp only [List.foldlM_cons, List.foldlM_nil, scan, List.nil_append, show ("End Dynamic" = "Begin Dynamic") = False by decide, if_false]
  show (if es.length = xs.length then _ else _) = _
  rw [if_pos h2]

/-! ### the box -/

/-- The values of the names. -/
def envOf (N : List String) (z : List K) (n : String) : K := ((N.zip z).lookup n).getD 0

theorem env_at {N : List String} {z : List K} (hn : N.Nodup) {i : Nat} {n : String} {k : K} (h1 : N[i]? = some n) (h2 : z[i]? = some k) : envOf N z n = k := by
  unfold envOf
  induction N generalizing z i with
  | nil => simp at h1
  | cons m N ih =>
    rw [List.nodup_cons] at hn
    cases z with
    | nil => simp at h2
    | cons w z =>
      cases i with
      | zero =>
        simp only [List.getElem?_cons_zero, Option.some.injEq] at h1 h2
        subst h1 h2
        simp
      | succ i =>
        simp only [List.getElem?_cons_succ] at h1 h2
        have : n ≠ m := fun e => hn.1 (e ▸ List.mem_of_getElem? h1)
        rw [List.zip_cons_cons, List.lookup_cons, beq_eq_false_iff_ne.2 this]
        exact ih hn.2 h1 h2

theorem env_le {N : List String} {z z' : List K} (hn : N.Nodup) (hl : N.length = z.length) (h : List.Forall₂ (· ≤ ·) z z') {n : String} (hm : n ∈ N) :
    envOf N z n ≤ envOf N z' n := by
  obtain ⟨i, hi, rfl⟩ := List.mem_iff_getElem.1 hm
  rw [List.forall₂_iff_get] at h
  have h1 : i < z.length := by omega
  have h2 : i < z'.length := by omega
  rw [env_at hn (List.getElem?_eq_getElem hi) (List.getElem?_eq_getElem h1), env_at hn (List.getElem?_eq_getElem hi) (List.getElem?_eq_getElem h2)]
  exact h.2 i h1 h2

theorem ranges_ok {xs ws : List String} {x w xhat what : List K} (h1 : x.length = xs.length) (h2 : xhat.length = xs.length) (h3 : w.length = ws.length)
    (h4 : what.length = ws.length) (hn : (xs ++ ws).Nodup) :
    ∃ D, ranges xs ws x w xhat what = .ok D ∧ ∀ n ∈ xs ++ ws, rangeOf D n = .ok (envOf (xs ++ ws) (x ++ w) n, envOf (xs ++ ws) (xhat ++ what) n) := by
  refine ⟨_, if_neg (by omega), fun n hm => ?_⟩
  have hz : xs.zip (x.zip xhat) ++ ws.zip (w.zip what) = (xs ++ ws).zip ((x ++ w).zip (xhat ++ what)) := by
    rw [List.zip_append (by omega), List.zip_append (by rw [List.length_zip]; omega)]
  rw [hz]
  obtain ⟨i, hi, rfl⟩ := List.mem_iff_getElem.1 hm
  have hl : i < xs.length + ws.length := by simpa using hi
  have i1 : i < (x ++ w).length := by rw [List.length_append]; omega
  have i2 : i < (xhat ++ what).length := by rw [List.length_append]; omega
  rw [env_at hn (List.getElem?_eq_getElem hi) (List.getElem?_eq_getElem i1), env_at hn (List.getElem?_eq_getElem hi) (List.getElem?_eq_getElem i2)]
  have hp : ((xs ++ ws)[i], ((x ++ w)[i], (xhat ++ what)[i])) ∈ (xs ++ ws).zip ((x ++ w).zip (xhat ++ what)) := by
    apply List.mem_of_getElem? (i := i)
    rw [List.getElem?_zip_eq_some]
    refine ⟨List.getElem?_eq_getElem hi, ?_⟩
    rw [List.getElem?_zip_eq_some]
    exact ⟨List.getElem?_eq_getElem i1, List.getElem?_eq_getElem i2⟩
  have hk : (((xs ++ ws).zip ((x ++ w).zip (xhat ++ what))).map Prod.fst).Nodup := by
    rw [List.map_fst_zip (by simp only [List.length_append, List.length_zip]; omega)]
    exact hn
  unfold rangeOf
  rw [foldl_set_mem _ _ hk _ hp]

theorem mapM_of_ok {α β : Type} (f : α → Except String β) (g : α → β) (l : List α) (h : ∀ a ∈ l, f a = .ok (g a)) : l.mapM f = .ok (l.map g) := by
  rw [mapM_ok_iff, List.forall₂_map_right_iff, List.forall₂_same]
  exact h

theorem findMin_ok {T : Tools K} (hT : Lawful T) {e : Ex K} {N : List String} (hu : ∀ n ∈ names e, n ∈ N) {D : Dict String (K × K)} {f g : String → K}
    (hD : ∀ n ∈ N, rangeOf D n = .ok (f n, g n)) :
    findMin T e D = .ok (T.minimize (lambdify (T.symbols e) e) ((T.symbols e).map f) ((T.symbols e).map g)) := by
  unfold findMin
  rw [mapM_of_ok (rangeOf D) (fun n => (f n, g n)) _ fun n hn => hD n (hu n ((hT.all e n).1 hn))]
  simp [Except.map, List.map_map, Function.comp_def]

variable [IsStrictOrderedRing K]

/-- Minimum and maximum bound the values. -/
theorem min_le_val {T : Tools K} (hT : Lawful T) {e : Ex K} {N : List String} (hu : ∀ n ∈ names e, n ∈ N) {f g h : String → K}
    (hm : ExactFor T.minimize (lambdify (T.symbols e) e)) (h1 : ∀ n ∈ N, f n ≤ h n) (h2 : ∀ n ∈ N, h n ≤ g n) :
    T.minimize (lambdify (T.symbols e) e) ((T.symbols e).map f) ((T.symbols e).map g) ≤ val h e := by
  have k : ∀ n ∈ T.symbols e, n ∈ N := fun n hn => hu n ((hT.all e n).1 hn)
  rw [← lambdify_at (T.symbols e) e h fun n hn => (hT.all e n).2 hn]
  have hb : InBox ((T.symbols e).map f) ((T.symbols e).map g) ((T.symbols e).map h) := by
    constructor
    · rw [List.forall₂_map_left_iff, List.forall₂_map_right_iff, List.forall₂_same]
      exact fun n hn => h1 n (k n hn)
    · rw [List.forall₂_map_left_iff, List.forall₂_map_right_iff, List.forall₂_same]
      exact fun n hn => h2 n (k n hn)
  exact (hm _ _ (InBox.le hb)).1 _ hb

/-- The value at a single point. -/
theorem min_eq_val {T : Tools K} (hT : Lawful T) {e : Ex K} {f : String → K} (hm : ExactFor T.minimize (lambdify (T.symbols e) e)) :
    T.minimize (lambdify (T.symbols e) e) ((T.symbols e).map f) ((T.symbols e).map f) = val f e := by
  rw [← lambdify_at (T.symbols e) e f fun n hn => (hT.all e n).2 hn]
  obtain ⟨z, hz, e1⟩ := (hm _ _ (List.forall₂_same.2 fun _ _ => le_refl _)).2
  rw [e1, ← forall₂_antisymm hz.1 hz.2]

theorem bounds {T : Tools K} (hT : Lawful T) {xs ws : List String} (hn : (xs ++ ws).Nodup) {exprs : List (Ex K)} (hl : exprs.length = xs.length)
    (hu : ∀ e ∈ exprs, ∀ n ∈ names e, n ∈ xs ++ ws) (hm : ∀ e ∈ exprs, Minimizes T e) {w what : List K} (hw : List.Forall₂ (· ≤ ·) w what)
    (hwl : w.length = ws.length) :
    BoundsOn (computeD T xs ws exprs) (fun a v => exprs.map fun e => val (envOf (xs ++ ws) (a ++ v)) e) xs.length w what := by
  intro x xhat hx hle
  have l1 := hle.length_eq
  have l2 := hw.length_eq
  obtain ⟨D, d1, d2⟩ := ranges_ok (x := x) (w := w) (xhat := xhat) (what := what) hx (l1 ▸ hx) hwl (l2 ▸ hwl) hn
  have hN : (xs ++ ws).length = (x ++ w).length := by simp only [List.length_append]; omega
  have hN' : ∀ a v, InBox x xhat a → InBox w what v → (xs ++ ws).length = (a ++ v).length := by
    intro a v ha hv
    rw [hN, List.length_append, List.length_append, ha.1.length_eq, hv.1.length_eq]
  set f := envOf (xs ++ ws) (x ++ w) with hf
  set g := envOf (xs ++ ws) (xhat ++ what) with hg
  have key : ∀ a v, InBox x xhat a → InBox w what v → ∀ n ∈ xs ++ ws, f n ≤ envOf (xs ++ ws) (a ++ v) n ∧ envOf (xs ++ ws) (a ++ v) n ≤ g n := by
    intro a v ha hv n hm
    have := inBox_append ha hv
    exact ⟨env_le hn hN this.1 hm, env_le hn (hN' a v ha hv) this.2 hm⟩
  by_cases hd : (allLe xhat x && allLe what w) = true
  · rw [Bool.and_eq_true] at hd
    have e1 := forall₂_antisymm hle (of_allLe l1.symm hd.1)
    have e2 := forall₂_antisymm hw (of_allLe l2.symm hd.2)
    subst e1 e2
    have hc : computeD T xs ws exprs x w x w = .ok (exprs.map fun e => val f e) := by
      refine mapM_of_ok _ _ _ fun e he => ?_
      rw [if_pos (by rw [allLe_of hle, allLe_of hw]; rfl), d1]
      show findMin T e D = _
      rw [findMin_ok hT (hu e he) d2, min_eq_val hT (hm e he).1]
    refine ⟨_, _, hc, hc, by simp [hl, hx], by simp [hl, hx], fun a v ha hv => ?_⟩
    have e3 := forall₂_antisymm ha.1 ha.2
    have e4 := forall₂_antisymm hv.1 hv.2
    subst e3 e4
    exact ⟨List.forall₂_same.2 fun _ _ => le_refl _, List.forall₂_same.2 fun _ _ => le_refl _⟩
  · refine ⟨exprs.map fun e => T.minimize (lambdify (T.symbols e) e) ((T.symbols e).map f) ((T.symbols e).map g),
      exprs.map fun e => -T.minimize (lambdify (T.symbols (.neg e)) (.neg e)) ((T.symbols (.neg e)).map f) ((T.symbols (.neg e)).map g), ?_, ?_, by simp [hl, hx],
      by simp [hl, hx], fun a v ha hv => ?_⟩
    · refine mapM_of_ok _ _ _ fun e he => ?_
      rw [if_pos (by rw [allLe_of hle, allLe_of hw]; rfl), d1]
      exact findMin_ok hT (hu e he) d2
    · refine mapM_of_ok _ _ _ fun e he => ?_
      rw [if_neg hd, if_pos (by rw [allLe_of hle, allLe_of hw]; rfl), d1]
      show findMaxS T e D = _
      unfold findMaxS
      rw [findMin_ok hT (e := .neg e) (hu e he) d2]
      rfl
    · constructor
      · rw [List.forall₂_map_left_iff, List.forall₂_map_right_iff, List.forall₂_same]
        exact fun e he => min_le_val hT (hu e he) (hm e he).1 (fun n hn => (key a v ha hv n hn).1) (fun n hn => (key a v ha hv n hn).2)
      · rw [List.forall₂_map_left_iff, List.forall₂_map_right_iff, List.forall₂_same]
        intro e he
        have := min_le_val hT (e := .neg e) (hu e he) (hm e he).2 (fun n hn => (key a v ha hv n hn).1) (fun n hn => (key a v ha hv n hn).2)
        simp only [val] at this
        linarith

/-! ### the function -/

/-- What the function returns: the values of the expressions. -/
theorem call_standard {T : Tools K} (hT : Lawful T) {ws xs ps : List String} {es : List (Ex K)} (hp : Proper ws xs ps es) {a v : List K} {dt : K}
    (ha : a.length = xs.length) (hv : v.length = ws.length) {y : List K} (h : call (standard ws xs ps es) a (v ++ [dt]) = some y) :
    y = es.map fun e => val (envOf (xs ++ ws) (a ++ v)) (subst "dt" dt (T.sym e)) := by
  obtain ⟨hd, ⟨hs1, hs2⟩, hu⟩ := hp
  have n1 : (xs ++ ws).Nodup := by
    rw [← List.append_assoc] at hd
    exact (List.nodup_append.1 hd).1
  have n2 : xs.Nodup := (List.nodup_append.1 n1).1
  have n3 := (List.nodup_append.1 hd).2.1
  have n4 : ws.Nodup := (List.nodup_append.1 n3).1
  have n5 := (List.nodup_append.1 n3).2.1
  have n6 : ps.Nodup := (List.nodup_append.1 n5).1
  have dx : ∀ n ∈ xs, n ∉ ws ∧ n ∉ ps ∧ n ≠ "dt" ∧ n ≠ "x" ∧ n ≠ "args" := by
    intro n hn
    have := fun m hm => (List.nodup_append.1 hd).2.2 n hn m hm
    refine ⟨fun h => this n (by simp [h]) rfl, fun h => this n (by simp [h]) rfl, this _ (by simp), this _ (by simp), this _ (by simp)⟩
  have dw : ∀ n ∈ ws, n ∉ ps ∧ n ≠ "dt" ∧ n ≠ "x" ∧ n ≠ "args" := by
    intro n hn
    have := fun m hm => (List.nodup_append.1 n3).2.2 n hn m hm
    refine ⟨fun h => this n (by simp [h]) rfl, this _ (by simp), this _ (by simp), this _ (by simp)⟩
  have dp : ∀ n ∈ ps, n ≠ "dt" := by
    intro n hn
    exact (List.nodup_append.1 n5).2.2 n hn _ (by simp)
  have nw : (ws ++ ["dt"]).Nodup := by
    rw [List.nodup_append]
    refine ⟨n4, by simp, fun n hn m hm => ?_⟩
    rw [List.mem_singleton] at hm
    exact hm ▸ (dw n hn).2.1
  unfold call standard at h
  set σ : Store K := Store.set (Store.set (fun _ => none) "x" (.list a)) "args" (.list (v ++ [dt])) with hσ
  have s1 : σ "args" = some (.list (v ++ [dt])) := by simp [hσ, Store.set]
  have s2 : σ "x" = some (.list a) := by simp [hσ, Store.set]
  have s3 : σ.unpack (ws ++ ["dt"]) (v ++ [dt]) "x" = some (.list a) := by
    rw [unpack_not_mem _ _ _ _ ?_, s2]
    rw [List.mem_append, List.mem_singleton]
    rintro (h | h)
    · exact (dw _ h).2.2.1 rfl
    · exact absurd h (by decide)
  simp only [List.cons_append, List.nil_append, exec, s1, s3, List.length_append, List.length_cons, List.length_nil, hv, ha, if_true] at h
  set σ' := (σ.unpack (ws ++ ["dt"]) (v ++ [dt])).unpack xs a with hσ'
  have hat : ∀ n, n ∈ xs ∨ n ∈ ws ∨ n = "dt" → σ' n = some (.num (if n = "dt" then dt else envOf (xs ++ ws) (a ++ v) n)) := by
    rintro n (hn | hn | rfl)
    · obtain ⟨i, hi, rfl⟩ := List.mem_iff_getElem.1 hn
      have i1 : i < a.length := by omega
      rw [if_neg (dx _ hn).2.2.1, hσ', unpack_mem xs a _ n2 i _ a[i] (List.getElem?_eq_getElem hi) (List.getElem?_eq_getElem i1)]
      rw [env_at n1 (i := i) (k := a[i])]
      · rw [List.getElem?_append_left hi, List.getElem?_eq_getElem hi]
      · rw [List.getElem?_append_left i1, List.getElem?_eq_getElem i1]
    · obtain ⟨i, hi, rfl⟩ := List.mem_iff_getElem.1 hn
      have i1 : i < v.length := by omega
      rw [if_neg (dw _ hn).2.1, hσ', unpack_not_mem _ _ _ _ fun hx => (dx _ hx).1 hn, unpack_mem _ _ _ nw i _ v[i]]
      · rw [env_at n1 (i := xs.length + i) (k := v[i])]
        · rw [List.getElem?_append_right (by omega), Nat.add_sub_cancel_left, List.getElem?_eq_getElem hi]
        · rw [List.getElem?_append_right (by omega), show xs.length + i - a.length = i by omega, List.getElem?_eq_getElem i1]
      · rw [List.getElem?_append_left hi, List.getElem?_eq_getElem hi]
      · rw [List.getElem?_append_left i1, List.getElem?_eq_getElem i1]
    · rw [if_pos rfl, hσ', unpack_not_mem _ _ _ _ fun hx => (dx _ hx).2.2.1 rfl, unpack_mem _ _ _ nw ws.length "dt" dt]
      · rw [List.getElem?_append_right (by omega)]; simp
      · rw [List.getElem?_append_right (by omega)]; simp [hv]
  obtain ⟨vs, h1, h2⟩ := exec_block ps es σ' _ y n6 (by omega) (fun e he n hn hp => by
    rcases hu e he n hn with h | h | h
    · exact (dx n h).2.1 hp
    · exact (dw n h).1 hp
    · exact dp n hp h) h
  simp only [exec] at h2
  rw [ret_block ps vs σ' n6 (by rw [hs1, ← hs2]; exact h1.length_eq)] at h2
  have hy := Option.some.inj h2
  subst hy
  have : List.Forall₂ (fun e v' => val (envOf (xs ++ ws) (a ++ v)) (subst "dt" dt (T.sym e)) = v') es vs := by
    rw [List.forall₂_iff_get] at h1 ⊢
    refine ⟨h1.1, fun i a1 a2 => ?_⟩
    rw [val_subst]
    refine hT.same _ _ _ ?_
    rw [← h1.2 i a1 a2]
    exact eval_congr _ _ _ fun n hn => (hat n (hu _ (List.get_mem _ _) n hn)).symm
  clear h h1 h2 hu hs2
  induction this with
  | nil => rfl
  | cons h _ ih => rw [List.map_cons, h, ← ih]

end Verif.MixT
