import Verif.Proofs.Reading
import Verif.Proofs.Assembled6
import Verif.Model.Parser

/-! Proofs for C97: guards that are read can be compiled and are about attributes. -/

set_option autoImplicit false
set_option linter.unusedSectionVars false

namespace Verif.Rd
open Verif.Py Verif.Grd Verif.Grd.Spec Verif.Rd.Spec Verif.Asm.Spec

variable {V K : Type} {lit : V → Option (Val K)}

theorem ident_clear {e : Expr V} {n : String} (h : ident e = some n) : hasOpaque e = false := by
  cases e <;> simp [ident] at h <;> simp [hasOpaque]

theorem readKeys_shape : ∀ (es : Exprs V) (S : Scope) (ks : List Key), readKeys S es = some ks → hasOpaques es = false ∧ ∀ k ∈ ks, ∃ n a, k = .attr n a
  | .nil, S, ks, h => by
    simp only [readKeys, Option.some.injEq] at h
    subst h
    simp [hasOpaques]
  | .cons e es, S, ks, h => by
    cases e <;> simp only [readKeys, reduceCtorEq, Option.bind_eq_some_iff] at h
    obtain ⟨n, he, h⟩ := h
    split at h
    · simp only [Option.map_eq_some_iff] at h
      obtain ⟨ks', hk, rfl⟩ := h
      obtain ⟨b1, b2⟩ := readKeys_shape es S ks' hk
      simpa [hasOpaques, hasOpaque, ident_clear he, b1] using b2
    · cases h

mutual
theorem readT_shape : ∀ (e : Expr V) (S : Scope) (t : Term K), readT lit S e = some t →
    hasOpaque e = false ∧ ∀ k ∈ keysT t, ∃ n a, k = .attr n a
  | .const v, S, t, h => by
    simp only [readT, Option.map_eq_some_iff] at h
    obtain ⟨c, hc, rfl⟩ := h
    simp [hasOpaque, keysT]
  | .str s, S, t, h => by
    simp only [readT, Option.some.injEq] at h
    subst h
    simp [hasOpaque, keysT]
  | .name n, S, t, h => by simp [readT] at h
  | .hole n ty, S, t, h => by simp [readT] at h
  | .attr e a, S, t, h => by
    simp only [readT, Option.bind_eq_some_iff] at h
    obtain ⟨n, hn, h⟩ := h
    split at h
    · cases h
      simp [hasOpaque, keysT, ident_clear hn]
    · cases h
  | .unary op e, S, t, h => by
    simp only [readT] at h
    split at h
    · simp only [Option.map_eq_some_iff] at h
      obtain ⟨u, hu, rfl⟩ := h
      simpa only [hasOpaque, keysT] using readT_shape e S u hu
    · cases h
  | .binop op l r, S, t, h => by
    simp only [readT, Option.bind_eq_some_iff, Option.map_eq_some_iff] at h
    obtain ⟨op', ho, a, ha, b, hb, rfl⟩ := h
    obtain ⟨a1, a3⟩ := readT_shape l S a ha
    obtain ⟨b1, b3⟩ := readT_shape r S b hb
    simp only [hasOpaque, keysT, a1, b1, List.mem_append, Bool.or_self, true_and]
    rintro k (hk | hk)
    · exact a3 k hk
    · exact b3 k hk
  | .boolop op es, S, t, h => by simp [readT] at h
  | .compare l rest, S, t, h => by simp [readT] at h
  | .call f args, S, t, h => by
    simp only [readT] at h
    split at h
    · simp only [Option.map_eq_some_iff] at h
      obtain ⟨ts, hts, rfl⟩ := h
      simpa only [hasOpaque, keysT] using readTs_shape args S ts hts
    · cases h
  | .mcall o f (.cons l (.cons c .nil)), S, t, h => by
    rw [readT] at h
    split at h
    · simp only [Option.bind_eq_some_iff, Option.map_eq_some_iff] at h
      obtain ⟨q, hq, u, hu, es, hes, ks, hks, rfl⟩ := h
      obtain rfl := display_eq hes
      obtain ⟨a1, a2⟩ := readT_shape l S u hu
      obtain ⟨b1, b2⟩ := readKeys_shape es S ks hks
      simp only [hasOpaque, hasOpaques, keysT, a1, b1, List.mem_append, Bool.or_self, true_and]
      rintro k (hk | hk)
      · exact a2 k hk
      · exact b2 k hk
    · split at h
      · simp only [Option.map_eq_some_iff] at h
        obtain ⟨ts, hts, rfl⟩ := h
        simpa only [hasOpaque, keysT] using readTs_shape (.cons l (.cons c .nil)) S ts hts
      · cases h
  | .mcall o f .nil, S, t, h => by
    rw [readT] at h
    swap
    · simp
    split at h
    · cases h
    · split at h
      · simp only [Option.map_eq_some_iff] at h
        obtain ⟨ts, hts, rfl⟩ := h
        simpa only [hasOpaque, keysT] using readTs_shape .nil S ts hts
      · cases h
  | .mcall o f (.cons l .nil), S, t, h => by
    rw [readT] at h
    swap
    · simp
    split at h
    · cases h
    · split at h
      · simp only [Option.map_eq_some_iff] at h
        obtain ⟨ts, hts, rfl⟩ := h
        simpa only [hasOpaque, keysT] using readTs_shape (.cons l .nil) S ts hts
      · cases h
  | .mcall o f (.cons l (.cons c (.cons d es))), S, t, h => by
    rw [readT] at h
    swap
    · simp
    split at h
    · cases h
    · split at h
      · simp only [Option.map_eq_some_iff] at h
        obtain ⟨ts, hts, rfl⟩ := h
        simpa only [hasOpaque, keysT] using readTs_shape (.cons l (.cons c (.cons d es))) S ts hts
      · cases h
  | .gen op elt x it ifs, S, t, h => by simp [readT] at h
  | .red op e x value, S, t, h => by
    simp only [readT, Option.bind_eq_some_iff] at h
    obtain ⟨l, hl, h⟩ := h
    split at h
    · simp only [Option.map_eq_some_iff] at h
      obtain ⟨u, hu, rfl⟩ := h
      simpa only [hasOpaque, keysT, ident_clear hl, Bool.or_false] using readT_shape e (S.bind x) u hu
    · cases h
  | .ifexp a b c, S, t, h => by simp [readT] at h
  | .opaque, S, t, h => by simp [readT] at h
theorem readTs_shape : ∀ (es : Exprs V) (S : Scope) (ts : Terms K), readTs lit S es = some ts →
    hasOpaques es = false ∧ ∀ k ∈ keysTs ts, ∃ n a, k = .attr n a
  | .nil, S, ts, h => by
    simp only [readTs, Option.some.injEq] at h
    subst h
    simp [hasOpaques, keysTs]
  | .cons e es, S, ts, h => by
    simp only [readTs, Option.bind_eq_some_iff, Option.map_eq_some_iff] at h
    obtain ⟨u, hu, us, hus, rfl⟩ := h
    obtain ⟨a1, a3⟩ := readT_shape e S u hu
    obtain ⟨b1, b3⟩ := readTs_shape es S us hus
    simp only [hasOpaques, keysTs, a1, b1, List.mem_append, Bool.or_self, true_and]
    rintro k (hk | hk)
    · exact a3 k hk
    · exact b3 k hk
end

mutual
theorem readF_shape : ∀ (e : Expr V) (S : Scope) (f : Fml K), readF lit S e = some f →
    hasOpaque e = false ∧ ∀ k ∈ keysF f, ∃ n a, k = .attr n a
  | .const v, S, f, h => by
    simp only [readF, Option.bind_eq_some_iff] at h
    obtain ⟨c, hc, h⟩ := h
    split at h
    · cases h
      simp [hasOpaque, keysF]
    · cases h
  | .str s, S, f, h => by simp [readF] at h
  | .name n, S, f, h => by simp [readF] at h
  | .hole n ty, S, f, h => by simp [readF] at h
  | .attr e a, S, f, h => by simp [readF] at h
  | .unary op e, S, f, h => by
    simp only [readF] at h
    split at h
    · simp only [Option.map_eq_some_iff] at h
      obtain ⟨u, hu, rfl⟩ := h
      simpa only [hasOpaque, keysF] using readF_shape e S u hu
    · cases h
  | .binop op l r, S, f, h => by simp [readF] at h
  | .boolop op es, S, f, h => by
    simp only [readF, Option.map_eq_some_iff] at h
    obtain ⟨gs, hg, rfl⟩ := h
    cases op <;> simpa only [hasOpaque, keysF] using readFs_shape es S gs hg
  | .compare l rest, S, f, h => by
    simp only [readF] at h
    split at h
    · rename_i op r
      simp only [Option.bind_eq_some_iff, Option.map_eq_some_iff] at h
      obtain ⟨op', ho, a, ha, b, hb, rfl⟩ := h
      obtain ⟨a1, a3⟩ := readT_shape l S a ha
      obtain ⟨b1, b3⟩ := readT_shape r S b hb
      simp only [hasOpaque, hasOpaqueC, keysF, a1, b1, List.mem_append, Bool.or_self, true_and]
      rintro k (hk | hk)
      · exact a3 k hk
      · exact b3 k hk
    · cases h
  | .call f' args, S, f, h => by
    simp only [readF] at h
    split at h
    · simp only [Option.map_eq_some_iff] at h
      obtain ⟨ts, hts, rfl⟩ := h
      simpa only [hasOpaque, keysF] using readTs_shape args S ts hts
    · cases h
  | .mcall o f' args, S, f, h => by
    simp only [readF] at h
    split at h
    · simp only [Option.map_eq_some_iff] at h
      obtain ⟨ts, hts, rfl⟩ := h
      simpa only [hasOpaque, keysF] using readTs_shape args S ts hts
    · cases h
  | .gen op elt x it ifs, S, f, h => by simp [readF] at h
  | .red op e x value, S, f, h => by
    simp only [readF, Option.bind_eq_some_iff] at h
    obtain ⟨l, hl, h⟩ := h
    split at h
    · simp only [Option.map_eq_some_iff] at h
      obtain ⟨u, hu, rfl⟩ := h
      simpa only [hasOpaque, keysF, ident_clear hl, Bool.or_false] using readF_shape e (S.bind x) u hu
    · cases h
  | .ifexp a b c, S, f, h => by simp [readF] at h
  | .opaque, S, f, h => by simp [readF] at h
theorem readFs_shape : ∀ (es : Exprs V) (S : Scope) (fs : Fmls K), readFs lit S es = some fs →
    hasOpaques es = false ∧ ∀ k ∈ keysFs fs, ∃ n a, k = .attr n a
  | .nil, S, ts, h => by
    simp only [readFs, Option.some.injEq] at h
    subst h
    simp [hasOpaques, keysFs]
  | .cons e es, S, ts, h => by
    simp only [readFs, Option.bind_eq_some_iff, Option.map_eq_some_iff] at h
    obtain ⟨u, hu, us, hus, rfl⟩ := h
    obtain ⟨a1, a3⟩ := readF_shape e S u hu
    obtain ⟨b1, b3⟩ := readFs_shape es S us hus
    simp only [hasOpaques, keysFs, a1, b1, List.mem_append, Bool.or_self, true_and]
    rintro k (hk | hk)
    · exact a3 k hk
    · exact b3 k hk
end

/-- C23 without the assumption that all variables were found. -/
theorem evalGuard_read {Seg : Type} [Field K] [LinearOrder K] [IsStrictOrderedRing K] (W : World K) (M : Road K Seg) (Z : Solver K) (s₀ s : Sensed K (Iv K)) (f : Fml K)
    (ρ : State K) (res : Bool × Bool) (hlen : LenSensed W s₀.len) (hd : DiscSensed ρ s₀) (hs : InSensed ρ s)
    (hf : ∀ k ∈ keysF f, ∃ n a, k = .attr n a) (hq : QueriesFit W M ρ s₀ s f) (hc : ∀ i, Dict.get? s.cont (.tmp i) = none) (hmap : W.dist = M.dist)
    (hcor : Correct W Z) (h : evalGuard W.fn M Z s₀ s f = .ok res) :
    (res.2 = true → evF W ρ f) ∧ (Complete Z → evF W ρ f → res.1 = true) := by
  have hp : ∀ k ∈ keysF f, Plain k := by
    intro k hk
    obtain ⟨n, a, rfl⟩ := hf k hk
    trivial
  have h0 := h
  unfold evalGuard at h0
  obtain ⟨u, hu, h1⟩ := (bind_ok_iff _ _ _).1 h0
  obtain ⟨s₁, hs1, h2⟩ := (bind_ok_iff _ _ _).1 h1
  obtain ⟨r, hr, h3⟩ := (bind_ok_iff _ _ _).1 h2
  split at h3
  · unfold check at h3
    obtain ⟨s₂, hs2, -⟩ := (bind_ok_iff _ _ _).1 h3
    exact evalGuard_ok W M Z s₀ s s₂ f u ρ res hmap hlen hd hs hp hc hu hs2 (hq u s₂ hu hs2) hcor h
  · rename_i hb
    cases h3
    have ev := unrollF_ev W ρ s₀.len hlen f u hu
    have hd1 : HasDisc ρ s₁.disc := ((addElems_ok ρ s₀ s₁ u hs1).2.1 hd).disc
    obtain ⟨-, d2, -⟩ := discList_ok W s₁.cont s₁.disc [u] r (by simpa using ev.2) hr
    have := d2 (by simpa using hb) ρ hd1
    simp only [List.mem_singleton, exists_eq_left] at this
    exact ⟨fun hh => by simp at hh, fun _ he => absurd (ev.1.2 he) this⟩

theorem queriesFit_free {Seg : Type} [Field K] [LinearOrder K] (W : World K) (M : Road K Seg) (ρ : State K) (s₀ s : Sensed K (Iv K)) (f : Fml K)
    (h : mapFreeF f = true) : QueriesFit W M ρ s₀ s f := fun u _ hu _ => Proofs.Asm.asksF_free W ρ _ u (Proofs.Asm.free_unrollF s₀.len f u hu h)

theorem query_write (q : Query) : query (queryText q) = some q := by cases q <;> rfl

theorem display_write (es : Exprs V) : display (.call listName es) = some es := by simp [display]

theorem readKeys_write (S : Scope) : ∀ ks : List Key, (∀ k ∈ ks, ∃ n ∈ S.objs, ∃ a ∈ S.attrs, k = .attr n a) → readKeys S (writeKeys (V := V) ks) = some ks
  | [], _ => by simp [writeKeys, readKeys]
  | k :: ks, h => by
    obtain ⟨n, hn, a, ha, rfl⟩ := h k (by simp)
    simp [writeKeys, readKeys, ident, hn, ha, readKeys_write S ks (fun k hk => h k (by simp [hk]))]

mutual
theorem readT_write {put : Val K → V} (hl : ∀ v, lit (put v) = some v) : ∀ (t : Term K) (S : Scope), KnownT S t → readT lit S (writeT put t) = some t
  | .lit (.str s), S, _ => by simp [writeT, readT]
  | .lit (.num r), S, _ => by simp [writeT, readT, hl]
  | .lit (.bool r), S, _ => by simp [writeT, readT, hl]
  | .var (.attr n a), S, h => by
    simp only [KnownT] at h
    simp [writeT, readT, ident, h.1, h.2]
  | .var (.name _), S, h => by simp [KnownT] at h
  | .var (.elem _ _ _), S, h => by simp [KnownT] at h
  | .var (.tmp _), S, h => by simp [KnownT] at h
  | .neg t, S, h => by simp [writeT, readT, readT_write hl t S h]
  | .bin op s t, S, h => by
    simp only [writeT, readT, readT_write hl s S h.1, readT_write hl t S h.2]
    cases op <;> simp [binText, binOp]
  | .call f args, S, h => by
    simp only [KnownT] at h
    simp [writeT, readT, readTs_write hl args S h.2, h.1]
  | .lane q l xs, S, h => by
    simp only [KnownT] at h
    rw [writeT, readT, if_pos (by simpa using h.1), readT_write hl l S h.2.1, query_write, display_write]
    simp only [Option.bind_some]
    rw [readKeys_write S xs h.2.2]
    rfl
  | .sum x l t, S, h => by
    simp only [KnownT] at h
    simp [writeT, readT, ident, readT_write hl t (S.bind x) h.2.2, h.1, h.2.1]
  | .sumList _, S, h => by simp [KnownT] at h
theorem readTs_write {put : Val K → V} (hl : ∀ v, lit (put v) = some v) : ∀ (t : Terms K) (S : Scope), KnownTs S t → readTs lit S (writeTs put t) = some t
  | .nil, S, _ => by simp [writeTs, readTs]
  | .cons t ts, S, h => by simp [writeTs, readTs, readT_write hl t S h.1, readTs_write hl ts S h.2]
end

mutual
theorem readF_write {put : Val K → V} (hl : ∀ v, lit (put v) = some v) : ∀ (f : Fml K) (S : Scope), KnownF S f → readF lit S (writeF put f) = some f
  | .bool b, S, _ => by simp [writeF, readF, hl]
  | .cmp op s t, S, h => by
    simp only [writeF, readF, readT_write hl s S h.1, readT_write hl t S h.2]
    cases op <;> simp [cmpText, cmpOp]
  | .and fs, S, h => by
    simp only [KnownF] at h
    simp [writeF, readF, readFs_write hl fs S h]
  | .or fs, S, h => by
    simp only [KnownF] at h
    simp [writeF, readF, readFs_write hl fs S h]
  | .not f, S, h => by
    simp only [KnownF] at h
    simp [writeF, readF, readF_write hl f S h]
  | .callb f args, S, h => by
    simp only [KnownF] at h
    simp [writeF, readF, readTs_write hl args S h.2, h.1]
  | .red b x l f, S, h => by
    simp only [KnownF] at h
    cases b <;> simp [writeF, readF, ident, readF_write hl f (S.bind x) h.2.2, h.1, h.2.1]
theorem readFs_write {put : Val K → V} (hl : ∀ v, lit (put v) = some v) : ∀ (f : Fmls K) (S : Scope), KnownFs S f → readFs lit S (writeFs put f) = some f
  | .nil, S, _ => by simp [writeFs, readFs]
  | .cons f fs, S, h => by
    simp only [KnownFs] at h
    simp [writeFs, readFs, readF_write hl f S h.1, readFs_write hl fs S h.2]
end

end Verif.Rd
