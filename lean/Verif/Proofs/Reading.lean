import Verif.Proofs.Basic
import Verif.Spec.Reading

/-! Proofs for C97: an expression that is read as a guard has the truth of the guard. -/

set_option autoImplicit false
set_option linter.unusedSectionVars false

namespace Verif.Rd
open Verif.Py Verif.Grd Verif.Grd.Spec Verif.Rd.Spec

variable {V K : Type} [Field K] [LinearOrder K] {P : PyOps V} {put : Val K → V} {lit : V → Option (Val K)} {W : World K}

theorem ident_eval {e : Expr V} {n : String} (h : ident e = some n) (σ : Store V) : eval P σ e = σ n := by
  cases e <;> simp [ident] at h <;> subst h <;> simp [eval]

theorem cmpOp_text {s : String} {op : CmpOp} (h : cmpOp s = some op) : s = cmpText op := by
  unfold cmpOp at h
  split at h <;> first | (injection h with h; subst h; rfl) | cases h

theorem binOp_text {s : String} {op : BinOp} (h : binOp s = some op) : s = binText op := by
  unfold binOp at h
  split at h <;> first | (injection h with h; subst h; rfl) | cases h

/-- The element of a list as the value of the comprehension variable. -/
theorem Spec.Sees.bind {S : Scope} {ρ : State K} {σ : Store V} (h : Sees P put W S ρ σ) {x l : String} (hl : S.lists.contains l = true)
    (hx : S.free x = true) {i : Nat} {v : V} (hv : (P.iter (σ l))[i]? = some v) : Sees P put W (S.bind x) (bindTo ρ x l i) (upd σ x v) := by
  simp only [Scope.free, Bool.and_eq_true, Bool.not_eq_true', List.contains_eq_mem, decide_eq_false_iff_not, decide_eq_true_eq] at hx hl
  have hne : ∀ n, n ∈ S.lists ∨ n ∈ S.funs ∨ n ∈ S.maps ∨ n = listName → n ≠ x := by
    rintro n hn rfl
    rcases hn with hn | hn | hn | hn
    · exact hx.1.1.1 hn
    · exact hx.1.1.2 hn
    · exact hx.1.2 hn
    · simp [hn] at hx
  refine ⟨fun n hn a ha => ?_, fun m hm => ?_, fun m hm j w hw a ha => ?_, fun f hf vs => ?_, fun o ho f vs => ?_, fun o ho q l rs => ?_⟩
  · simp only [upd, bindTo]
    by_cases e : n = x
    · rw [if_pos e, if_pos e]
      exact h.item l hl i v hv a ha
    · rw [if_neg e, if_neg e]
      exact h.attr n ((List.mem_cons.1 hn).resolve_left e) a ha
  · simp only [upd, if_neg (hne m (.inl hm))]
    exact h.length m hm
  · simp only [upd, if_neg (hne m (.inl hm))] at hw
    exact h.item m hm j w hw a ha
  · simp only [upd, if_neg (hne f (.inr (.inl hf)))]
    exact h.call f hf vs
  · simp only [upd, if_neg (hne o (.inr (.inl ho)))]
    exact h.method o ho f vs
  · simp only [upd, if_neg (hne o (.inr (.inr (.inl ho)))), if_neg (hne listName (.inr (.inr (.inr rfl))))]
    exact h.query o ho q l rs

theorem query_text {s : String} {q : Query} (h : query s = some q) : s = queryText q := by
  unfold query at h
  split at h <;> first | (injection h with h; subst h; rfl) | cases h

theorem display_eq {c : Expr V} {es : Exprs V} (h : display c = some es) : c = .call listName es := by
  cases c <;> simp [display] at h
  obtain ⟨rfl, rfl⟩ := h
  rfl

/-- The coordinates of a query, as Python computes them. -/
theorem readKeys_ok {S : Scope} {ρ : State K} {σ : Store V} (hS : Sees P put W S ρ σ) : ∀ (es : Exprs V) (ks : List Key), readKeys S es = some ks →
    (∀ k ∈ ks, IsNum (look ρ k)) → evalList P σ es = (ks.map fun k => toNum (look ρ k)).map fun r => put (.num r)
  | .nil, ks, h, _ => by
    simp only [readKeys, Option.some.injEq] at h
    subst h
    simp [evalList]
  | .cons e es, ks, h, hn => by
    cases e <;> simp only [readKeys, reduceCtorEq, Option.bind_eq_some_iff] at h
    rename_i e a
    obtain ⟨n, he, h⟩ := h
    split at h
    · rename_i hc
      simp only [Option.map_eq_some_iff] at h
      obtain ⟨ks', hk, rfl⟩ := h
      simp only [Bool.and_eq_true, List.contains_eq_mem, decide_eq_true_eq] at hc
      simp only [evalList, eval, List.map_cons, ident_eval he, readKeys_ok hS es ks' hk (fun k hk => hn k (by simp [hk])), hS.attr n hc.1 a hc.2]
      obtain ⟨r, hr⟩ := hn (.attr n a) (by simp)
      simp only [look] at hr ⊢
      rw [hr]
      rfl
    · cases h

/-- The elements of a list one by one. -/
theorem iter_map {S : Scope} {ρ : State K} {σ : Store V} (h : Sees P put W S ρ σ) {l : String} (hl : S.lists.contains l = true) {α : Type}
    (f : V → α) (g : Nat → α) (hfg : ∀ i v, i < W.len l → (P.iter (σ l))[i]? = some v → f v = g i) :
    (P.iter (σ l)).map f = (List.range (W.len l)).map g := by
  have hlen := h.length l (by simpa using hl)
  refine List.ext_getElem (by simp [hlen]) (fun i h1 h2 => ?_)
  simp only [List.length_map] at h1
  simp only [List.getElem_map, List.getElem_range]
  exact hfg i _ (hlen ▸ h1) (List.getElem?_eq_getElem h1)

theorem sum_put (hA : Agrees P put lit) : ∀ (vs : List (Val K)) (a : K), (∀ v ∈ vs, IsNum v) →
    (vs.map put).foldl P.add (put (.num a)) = put (.num (a + (vs.map toNum).sum))
  | [], a, _ => by simp
  | v :: vs, a, h => by
    obtain ⟨r, rfl⟩ := h v (by simp)
    simp only [List.map_cons, List.foldl_cons, hA.add, List.sum_cons, toNum]
    rw [sum_put hA vs _ (fun w hw => h w (by simp [hw])), add_assoc]

theorem sumVals_num : ∀ (vs : List (Val K)), (∀ v ∈ vs, IsNum v) → sumVals vs = .num (vs.map toNum).sum
  | [], _ => rfl
  | [v], h => by obtain ⟨r, rfl⟩ := h v (by simp); simp [sumVals, toNum]
  | _ :: _ :: _, _ => rfl

mutual
theorem readT_ok (hA : Agrees P put lit) : ∀ (e : Expr V) (S : Scope) (ρ : State K) (σ : Store V) (t : Term K), Sees P put W S ρ σ →
    readT lit S e = some t → SafeT W ρ t → eval P σ e = put (evT W ρ t)
  | .const v, S, ρ, σ, t, hS, h, hs => by
    simp only [readT, Option.map_eq_some_iff] at h
    obtain ⟨c, hc, rfl⟩ := h
    simp only [eval, evT]
    exact hA.lit v c hc
  | .str s, S, ρ, σ, t, hS, h, hs => by
    simp only [readT, Option.some.injEq] at h
    subst h
    simp only [eval, evT]
    exact hA.str s
  | .name n, S, ρ, σ, t, hS, h, hs => by simp [readT] at h
  | .hole n ty, S, ρ, σ, t, hS, h, hs => by simp [readT] at h
  | .attr e a, S, ρ, σ, t, hS, h, hs => by
    simp only [readT, Option.bind_eq_some_iff] at h
    obtain ⟨n, hn, h⟩ := h
    split at h
    · rename_i hc
      cases h
      simp only [Bool.and_eq_true, List.contains_eq_mem, decide_eq_true_eq] at hc
      simp only [eval, evT, look, ident_eval hn]
      exact hS.attr n hc.1 a hc.2
    · cases h
  | .unary op e, S, ρ, σ, t, hS, h, hs => by
    simp only [readT] at h
    split at h
    · rename_i ho
      subst ho
      simp only [Option.map_eq_some_iff] at h
      obtain ⟨u, hu, rfl⟩ := h
      simp only [SafeT] at hs
      obtain ⟨r, hr⟩ := hs.2
      simp only [eval, evT, readT_ok hA e S ρ σ u hS hu hs.1, hr, toNum, hA.neg]
    · cases h
  | .binop op l r, S, ρ, σ, t, hS, h, hs => by
    simp only [readT, Option.bind_eq_some_iff, Option.map_eq_some_iff] at h
    obtain ⟨op', ho, a, ha, b, hb, rfl⟩ := h
    simp only [SafeT] at hs
    obtain ⟨h1, h2, ⟨x, hx⟩, ⟨y, hy⟩, h3⟩ := hs
    simp only [eval, evT, readT_ok hA l S ρ σ a hS ha h1, readT_ok hA r S ρ σ b hS hb h2, hx, hy, toNum, binOp_text ho]
    rw [hy] at h3
    exact hA.bin op' x y h3
  | .boolop op es, S, ρ, σ, t, hS, h, hs => by simp [readT] at h
  | .compare l rest, S, ρ, σ, t, hS, h, hs => by simp [readT] at h
  | .call f args, S, ρ, σ, t, hS, h, hs => by
    simp only [readT] at h
    split at h
    · rename_i hf
      simp only [Option.map_eq_some_iff] at h
      obtain ⟨ts, hts, rfl⟩ := h
      simp only [SafeT] at hs
      simp only [eval, evT, readTs_ok hA args S ρ σ ts hS hts hs]
      exact hS.call f (by simpa using hf) _
    · cases h
  | .mcall o f (.cons l (.cons c .nil)), S, ρ, σ, t, hS, h, hs => by
    rw [readT] at h
    split at h
    · rename_i hm
      simp only [Option.bind_eq_some_iff, Option.map_eq_some_iff] at h
      obtain ⟨q, hq, u, hu, es, hes, ks, hks, rfl⟩ := h
      simp only [SafeT] at hs
      obtain ⟨s, hs2⟩ := hs.2.1
      obtain rfl := display_eq hes
      simp only [eval, evalList, evT, readT_ok hA l S ρ σ u hS hu hs.1, readKeys_ok hS es ks hks hs.2.2, hs2, toStr, query_text hq]
      exact hS.query o (by simpa using hm) q s _
    · split at h
      · rename_i hf
        simp only [Option.map_eq_some_iff] at h
        obtain ⟨ts, hts, rfl⟩ := h
        simp only [SafeT] at hs
        simp only [eval, evT, readTs_ok hA (.cons l (.cons c .nil)) S ρ σ ts hS hts hs]
        exact hS.method o (by simpa using hf) f _
      · cases h
  | .mcall o f .nil, S, ρ, σ, t, hS, h, hs => by
    rw [readT] at h
    swap
    · simp
    split at h
    · cases h
    · split at h
      · rename_i hf
        simp only [Option.map_eq_some_iff] at h
        obtain ⟨ts, hts, rfl⟩ := h
        simp only [SafeT] at hs
        simp only [eval, evT, readTs_ok hA .nil S ρ σ ts hS hts hs]
        exact hS.method o (by simpa using hf) f _
      · cases h
  | .mcall o f (.cons l .nil), S, ρ, σ, t, hS, h, hs => by
    rw [readT] at h
    swap
    · simp
    split at h
    · cases h
    · split at h
      · rename_i hf
        simp only [Option.map_eq_some_iff] at h
        obtain ⟨ts, hts, rfl⟩ := h
        simp only [SafeT] at hs
        simp only [eval, evT, readTs_ok hA (.cons l .nil) S ρ σ ts hS hts hs]
        exact hS.method o (by simpa using hf) f _
      · cases h
  | .mcall o f (.cons l (.cons c (.cons d es))), S, ρ, σ, t, hS, h, hs => by
    rw [readT] at h
    swap
    · simp
    split at h
    · cases h
    · split at h
      · rename_i hf
        simp only [Option.map_eq_some_iff] at h
        obtain ⟨ts, hts, rfl⟩ := h
        simp only [SafeT] at hs
        simp only [eval, evT, readTs_ok hA (.cons l (.cons c (.cons d es))) S ρ σ ts hS hts hs]
        exact hS.method o (by simpa using hf) f _
      · cases h
  | .gen op elt x it ifs, S, ρ, σ, t, hS, h, hs => by simp [readT] at h
  | .red op e x value, S, ρ, σ, t, hS, h, hs => by
    simp only [readT, Option.bind_eq_some_iff] at h
    obtain ⟨l, hl, h⟩ := h
    split at h
    · rename_i hc
      obtain ⟨rfl, hc⟩ := hc
      simp only [Bool.and_eq_true] at hc
      simp only [Option.map_eq_some_iff] at h
      obtain ⟨u, hu, rfl⟩ := h
      simp only [SafeT] at hs
      simp only [eval, evT, ident_eval hl, reduce]
      rw [iter_map hS hc.1 (fun v => eval P (upd σ x v) e) (fun i => put (evT W (bindTo ρ x l i) u)) (fun i v hi hv =>
        readT_ok hA e (S.bind x) (bindTo ρ x l i) (upd σ x v) u (hS.bind hc.1 hc.2 hv) hu (hs i hi).1)]
      have hn : ∀ v ∈ (List.range (W.len l)).map (fun i => evT W (bindTo ρ x l i) u), IsNum v := by
        intro v hv
        obtain ⟨i, hi, rfl⟩ := List.mem_map.1 hv
        exact (hs i (List.mem_range.1 hi)).2
      have := sum_put hA _ 0 hn
      rw [List.map_map, ← hA.zero, zero_add] at this
      rw [sumVals_num _ hn, ← this]
      rfl
    · cases h
  | .ifexp a b c, S, ρ, σ, t, hS, h, hs => by simp [readT] at h
  | .opaque, S, ρ, σ, t, hS, h, hs => by simp [readT] at h
theorem readTs_ok (hA : Agrees P put lit) : ∀ (es : Exprs V) (S : Scope) (ρ : State K) (σ : Store V) (ts : Terms K), Sees P put W S ρ σ →
    readTs lit S es = some ts → SafeTs W ρ ts → evalList P σ es = (evTs W ρ ts).map put
  | .nil, S, ρ, σ, ts, hS, h, hs => by
    simp only [readTs, Option.some.injEq] at h
    subst h
    simp [evalList, evTs]
  | .cons e es, S, ρ, σ, ts, hS, h, hs => by
    simp only [readTs, Option.bind_eq_some_iff, Option.map_eq_some_iff] at h
    obtain ⟨u, hu, us, hus, rfl⟩ := h
    simp only [SafeTs] at hs
    simp only [evalList, evTs, List.map_cons, readT_ok hA e S ρ σ u hS hu hs.1, readTs_ok hA es S ρ σ us hS hus hs.2]
end

mutual
theorem readF_ok (hA : Agrees P put lit) (hP : P.Lawful) : ∀ (e : Expr V) (S : Scope) (ρ : State K) (σ : Store V) (f : Fml K), Sees P put W S ρ σ →
    readF lit S e = some f → SafeF W ρ f → (P.truth (eval P σ e) = true ↔ evF W ρ f)
  | .const v, S, ρ, σ, f, hS, h, hs => by
    simp only [readF, Option.bind_eq_some_iff] at h
    obtain ⟨c, hc, h⟩ := h
    split at h
    · cases h
      simp only [eval, evF, hA.lit v _ hc, hA.truth]
    · cases h
  | .str s, S, ρ, σ, f, hS, h, hs => by simp [readF] at h
  | .name n, S, ρ, σ, f, hS, h, hs => by simp [readF] at h
  | .hole n ty, S, ρ, σ, f, hS, h, hs => by simp [readF] at h
  | .attr e a, S, ρ, σ, f, hS, h, hs => by simp [readF] at h
  | .unary op e, S, ρ, σ, f, hS, h, hs => by
    simp only [readF] at h
    split at h
    · rename_i ho
      subst ho
      simp only [Option.map_eq_some_iff] at h
      obtain ⟨g, hg, rfl⟩ := h
      simp only [SafeF] at hs
      have ih := readF_ok hA hP e S ρ σ g hS hg hs
      simp only [eval, evF, hP.truth_ofBool, ← ih, Bool.not_eq_true', Bool.not_eq_true]
    · cases h
  | .binop op l r, S, ρ, σ, f, hS, h, hs => by simp [readF] at h
  | .boolop op es, S, ρ, σ, f, hS, h, hs => by
    simp only [readF, Option.map_eq_some_iff] at h
    obtain ⟨gs, hg, rfl⟩ := h
    cases op with
    | and =>
      simp only [SafeF] at hs
      simp only [eval, evF]
      exact readAnd_ok hA hP es S ρ σ gs hS hg hs
    | or =>
      simp only [SafeF] at hs
      simp only [eval, evF]
      exact readOr_ok hA hP es S ρ σ gs hS hg hs
  | .compare l rest, S, ρ, σ, f, hS, h, hs => by
    simp only [readF] at h
    split at h
    · rename_i op r
      simp only [Option.bind_eq_some_iff, Option.map_eq_some_iff] at h
      obtain ⟨op', ho, a, ha, b, hb, rfl⟩ := h
      simp only [SafeF] at hs
      simp only [eval, evalCmps, evF, hP.truth_ofBool, Bool.and_true, readT_ok hA l S ρ σ a hS ha hs.1,
        readT_ok hA r S ρ σ b hS hb hs.2.1, cmpOp_text ho]
      exact hA.cmp op' _ _ hs.2.2
    · cases h
  | .call f' args, S, ρ, σ, f, hS, h, hs => by
    simp only [readF] at h
    split at h
    · rename_i hf
      simp only [Option.map_eq_some_iff] at h
      obtain ⟨ts, hts, rfl⟩ := h
      simp only [SafeF] at hs
      obtain ⟨hs, b, hb⟩ := hs
      simp only [eval, evF, readTs_ok hA args S ρ σ ts hS hts hs, hS.call f' (by simpa using hf), hb, hA.truth, Val.bool.injEq]
    · cases h
  | .mcall o f' args, S, ρ, σ, f, hS, h, hs => by
    simp only [readF] at h
    split at h
    · rename_i hf
      simp only [Option.map_eq_some_iff] at h
      obtain ⟨ts, hts, rfl⟩ := h
      simp only [SafeF] at hs
      obtain ⟨hs, b, hb⟩ := hs
      simp only [eval, evF, readTs_ok hA args S ρ σ ts hS hts hs, hS.method o (by simpa using hf) f', hb, hA.truth, Val.bool.injEq]
    · cases h
  | .gen op elt x it ifs, S, ρ, σ, f, hS, h, hs => by simp [readF] at h
  | .red op e x value, S, ρ, σ, f, hS, h, hs => by
    simp only [readF, Option.bind_eq_some_iff] at h
    obtain ⟨l, hl, h⟩ := h
    split at h
    · rename_i hc
      obtain ⟨ho, hc⟩ := hc
      simp only [Bool.and_eq_true] at hc
      simp only [Option.map_eq_some_iff] at h
      obtain ⟨u, hu, rfl⟩ := h
      simp only [SafeF] at hs
      have key : ∀ i v, i < W.len l → (P.iter (σ l))[i]? = some v →
          (P.truth (eval P (upd σ x v) e) = true ↔ evF W (bindTo ρ x l i) u) := fun i v hi hv =>
        readF_ok hA hP e (S.bind x) (bindTo ρ x l i) (upd σ x v) u (hS.bind hc.1 hc.2 hv) hu (hs i hi)
      have hlen := hS.length l (by simpa using hc.1)
      cases op with
      | sum => exact absurd rfl ho
      | all =>
        simp only [eval, reduce, ident_eval hl, hP.truth_ofBool, List.all_map, List.all_eq_true, Function.comp, decide_true, evF]
        constructor
        · intro hall i hi
          have hv : (P.iter (σ l))[i]? = some (P.iter (σ l))[i] := List.getElem?_eq_getElem (hlen ▸ hi)
          exact (key i _ hi hv).1 (hall _ (List.mem_of_getElem? hv))
        · intro hall v hv
          obtain ⟨i, hi⟩ := List.mem_iff_getElem?.1 hv
          have hlt : i < W.len l := hlen ▸ (List.getElem?_eq_some_iff.1 hi).1
          exact (key i v hlt hi).2 (hall i hlt)
      | any =>
        simp only [eval, reduce, ident_eval hl, hP.truth_ofBool, List.any_map, List.any_eq_true, Function.comp, evF,
          show decide (RedOp.any = RedOp.all) = false from rfl]
        constructor
        · rintro ⟨v, hv, ht⟩
          obtain ⟨i, hi⟩ := List.mem_iff_getElem?.1 hv
          have hlt : i < W.len l := hlen ▸ (List.getElem?_eq_some_iff.1 hi).1
          exact ⟨i, hlt, (key i v hlt hi).1 ht⟩
        · rintro ⟨i, hi, ht⟩
          have hv : (P.iter (σ l))[i]? = some (P.iter (σ l))[i] := List.getElem?_eq_getElem (hlen ▸ hi)
          exact ⟨_, List.mem_of_getElem? hv, (key i _ hi hv).2 ht⟩
    · cases h
  | .ifexp a b c, S, ρ, σ, f, hS, h, hs => by simp [readF] at h
  | .opaque, S, ρ, σ, f, hS, h, hs => by simp [readF] at h
theorem readAnd_ok (hA : Agrees P put lit) (hP : P.Lawful) : ∀ (es : Exprs V) (S : Scope) (ρ : State K) (σ : Store V) (fs : Fmls K),
    Sees P put W S ρ σ → readFs lit S es = some fs → SafeAnd W ρ fs → (P.truth (evalAnd P σ es) = true ↔ evAll W ρ fs)
  | .nil, S, ρ, σ, fs, hS, h, hs => by
    simp only [readFs, Option.some.injEq] at h
    subst h
    simp [evalAnd, evAll, hP.truth_ofBool]
  | .cons e .nil, S, ρ, σ, fs, hS, h, hs => by
    simp only [readFs, Option.bind_eq_some_iff, Option.map_eq_some_iff] at h
    obtain ⟨g, hg, gs, hgs, rfl⟩ := h
    cases hgs
    simp only [SafeAnd] at hs
    simp only [evalAnd, evAll, readF_ok hA hP e S ρ σ g hS hg hs.1, and_true]
  | .cons e (.cons e' es), S, ρ, σ, fs, hS, h, hs => by
    rw [readFs] at h
    simp only [Option.bind_eq_some_iff, Option.map_eq_some_iff] at h
    obtain ⟨g, hg, gs, hgs, rfl⟩ := h
    simp only [SafeAnd] at hs
    have ih := readF_ok hA hP e S ρ σ g hS hg hs.1
    simp only [evalAnd, evAll]
    split
    · rename_i ht
      have hg' := ih.1 ht
      rw [readAnd_ok hA hP (.cons e' es) S ρ σ gs hS hgs (hs.2 hg')]
      exact ⟨fun h => ⟨hg', h⟩, fun h => h.2⟩
    · rename_i ht
      exact ⟨fun h => absurd h ht, fun h => absurd (ih.2 h.1) ht⟩
theorem readOr_ok (hA : Agrees P put lit) (hP : P.Lawful) : ∀ (es : Exprs V) (S : Scope) (ρ : State K) (σ : Store V) (fs : Fmls K),
    Sees P put W S ρ σ → readFs lit S es = some fs → SafeOr W ρ fs → (P.truth (evalOr P σ es) = true ↔ evAny W ρ fs)
  | .nil, S, ρ, σ, fs, hS, h, hs => by
    simp only [readFs, Option.some.injEq] at h
    subst h
    simp [evalOr, evAny, hP.truth_ofBool]
  | .cons e .nil, S, ρ, σ, fs, hS, h, hs => by
    simp only [readFs, Option.bind_eq_some_iff, Option.map_eq_some_iff] at h
    obtain ⟨g, hg, gs, hgs, rfl⟩ := h
    cases hgs
    simp only [SafeOr] at hs
    simp only [evalOr, evAny, readF_ok hA hP e S ρ σ g hS hg hs.1, or_false]
  | .cons e (.cons e' es), S, ρ, σ, fs, hS, h, hs => by
    rw [readFs] at h
    simp only [Option.bind_eq_some_iff, Option.map_eq_some_iff] at h
    obtain ⟨g, hg, gs, hgs, rfl⟩ := h
    simp only [SafeOr] at hs
    have ih := readF_ok hA hP e S ρ σ g hS hg hs.1
    simp only [evalOr, evAny]
    split
    · rename_i ht
      exact ⟨fun _ => .inl (ih.1 ht), fun _ => ht⟩
    · rename_i ht
      have hg' : ¬ evF W ρ g := fun h => ht (ih.2 h)
      rw [readOr_ok hA hP (.cons e' es) S ρ σ gs hS hgs (hs.2 hg')]
      exact ⟨fun h => .inr h, fun h => h.resolve_left hg'⟩
end

end Verif.Rd
