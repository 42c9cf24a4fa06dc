import Verif.Proofs.Guard3

/-!
Discrete evaluation resolves comparisons of modes; variables of unrolled guards; the whole pipeline.
-/

set_option autoImplicit false
set_option linter.unusedSectionVars false

namespace Verif.Grd

open Verif.Grd.Spec

variable {K : Type} [Field K] [LinearOrder K] [IsStrictOrderedRing K]

/-! ### Resolved comparisons -/

theorem discT_none {V : Type} (F : Funs K) (cont : Dict Key V) (disc : Dict Key (Val K)) (t : Term K) (r : Option (Val K) × Term K)
    (h : discT F cont disc t = .ok r) (hn : r.1 = none) : atomKnown disc r.2 = false := by
  cases t with
  | lit v =>
    simp only [discT] at h; cases h
    cases v <;> simp [known] at hn
    simp [atomKnown]
  | var k =>
    simp only [discT] at h
    cases hg : Dict.get? disc k with
    | none => simp only [hg] at h; cases h; simp [atomKnown, hg]
    | some v =>
      simp only [hg] at h; cases h
      cases v <;> simp [known] at hn
      simp [atomKnown, hg]
  | neg t =>
    simp only [discT] at h
    obtain ⟨r', _, rfl⟩ := (map_ok_iff ..).1 h
    simp [atomKnown]
  | bin op s t =>
    simp only [discT] at h
    obtain ⟨r1, _, h⟩ := (bind_ok_iff ..).1 h
    obtain ⟨r2, _, h⟩ := (bind_ok_iff ..).1 h
    cases h; simp [atomKnown]
  | call f args =>
    simp only [discT] at h
    obtain ⟨as, _, h⟩ := (bind_ok_iff ..).1 h
    split at h
    · obtain ⟨vs, _, h⟩ := (bind_ok_iff ..).1 h
      cases h
      simp only at hn ⊢
      cases hF : F f vs <;> simp [hF, known] at hn
      simp [litOf, atomKnown]
    · cases h; simp [atomKnown]
  | lane q k xs =>
    simp only [discT] at h
    obtain ⟨r1, _, h⟩ := (bind_ok_iff ..).1 h
    split at h
    · cases h
    · cases h; simp [atomKnown]
  | sum x l t => simp [discT] at h
  | sumList ts =>
    simp only [discT] at h
    split at h
    · cases h
    · cases h; simp [atomKnown]

mutual
theorem discF_resolved {V : Type} (F : Funs K) (cont : Dict Key V) (disc : Dict Key (Val K)) : ∀ (f : Fml K) (r : Bool × Fml K),
    discF F cont disc f = .ok r → Resolved disc r.2
  | .bool b, r, h => by simp only [discF] at h; cases h; simp [Resolved]
  | .cmp op s t, r, h => by
    simp only [discF] at h
    obtain ⟨r1, h1, h⟩ := (bind_ok_iff ..).1 h
    obtain ⟨r2, h2, h⟩ := (bind_ok_iff ..).1 h
    cases e1 : r1.1 with
    | none =>
      simp only [e1] at h
      cases h
      simp [Resolved, discT_none F cont disc s r1 h1 e1]
    | some a =>
      cases e2 : r2.1 with
      | none =>
        simp only [e1, e2] at h
        cases h
        simp [Resolved, discT_none F cont disc t r2 h2 e2]
      | some b =>
        simp only [e1, e2] at h
        obtain ⟨res, _, h⟩ := (bind_ok_iff ..).1 h
        cases h
        simp [Resolved]
  | .and fs, r, h => by
    simp only [discF] at h
    obtain ⟨r1, h1, h⟩ := (bind_ok_iff ..).1 h
    cases r1 with
    | none => cases h; simp [Resolved]
    | some g => cases h; simpa [Resolved] using discAnd_resolved F cont disc fs g h1
  | .or fs, r, h => by
    simp only [discF] at h
    obtain ⟨r1, h1, h⟩ := (bind_ok_iff ..).1 h
    cases h
    simpa [Resolved] using discOr_resolved F cont disc fs r1 h1
  | .not f, r, h => by
    simp only [discF] at h
    obtain ⟨r1, h1, h⟩ := (bind_ok_iff ..).1 h
    have := discF_resolved F cont disc f r1 h1
    split at h
    · cases h; simpa [Resolved] using this
    · cases h; simp [Resolved]
  | .callb f args, r, h => by
    simp only [discF] at h
    obtain ⟨as, _, h⟩ := (bind_ok_iff ..).1 h
    split at h
    · obtain ⟨vs, _, h⟩ := (bind_ok_iff ..).1 h
      split at h
      · cases h; simp [Resolved]
      · cases h
    · cases h; simp [Resolved]
  | .red _ _ _ _, r, h => by simp [discF] at h
theorem discAnd_resolved {V : Type} (F : Funs K) (cont : Dict Key V) (disc : Dict Key (Val K)) : ∀ (f g : Fmls K),
    discAnd F cont disc f = .ok (some g) → Resolveds disc g
  | .nil, g, h => by simp only [discAnd] at h; cases h; simp [Resolveds]
  | .cons f fs, g, h => by
    simp only [discAnd] at h
    obtain ⟨r1, h1, h⟩ := (bind_ok_iff ..).1 h
    split at h
    · obtain ⟨r2, h2, h⟩ := (bind_ok_iff ..).1 h
      cases r2 with
      | none => simp [pure, Except.pure] at h
      | some g' =>
        simp only [Option.map_some, pure, Except.pure, Except.ok.injEq, Option.some.injEq] at h
        subst h
        exact ⟨discF_resolved F cont disc f r1 h1, discAnd_resolved F cont disc fs g' h2⟩
    · cases h
theorem discOr_resolved {V : Type} (F : Funs K) (cont : Dict Key V) (disc : Dict Key (Val K)) : ∀ (f : Fmls K) (r : Bool × Fmls K),
    discOr F cont disc f = .ok r → Resolveds disc r.2
  | .nil, r, h => by simp only [discOr] at h; cases h; simp [Resolveds]
  | .cons f fs, r, h => by
    simp only [discOr] at h
    obtain ⟨r1, h1, h⟩ := (bind_ok_iff ..).1 h
    obtain ⟨r2, h2, h⟩ := (bind_ok_iff ..).1 h
    cases h
    exact ⟨discF_resolved F cont disc f r1 h1, discOr_resolved F cont disc fs r2 h2⟩
end

theorem discList_resolved {V : Type} (F : Funs K) (cont : Dict Key V) (disc : Dict Key (Val K)) (fs : List (Fml K))
    (r : Bool × List (Fml K)) (h : discList F cont disc fs = .ok r) (hr : r.1 = true) : ∀ f ∈ r.2, Resolved disc f := by
  induction fs generalizing r with
  | nil => simp only [discList] at h; cases h; simp
  | cons f fs ih =>
    simp only [discList] at h
    obtain ⟨r1, h1, h⟩ := (bind_ok_iff ..).1 h
    split at h
    · obtain ⟨r2, h2, h⟩ := (bind_ok_iff ..).1 h
      cases h
      simp only at hr
      simp only [List.mem_cons, forall_eq_or_imp]
      exact ⟨discF_resolved F cont disc f r1 h1, ih r2 h2 hr⟩
    · cases h; simp at hr

/-! ### Variables of unrolled guards -/

theorem plain_subKey (x l : String) (i : Nat) (k : Key) (h : Plain k) : Plain (subKey x l i k) := by
  cases k with
  | attr n a => simp only [subKey]; split <;> simp [Plain]
  | _ => simpa [subKey] using h

mutual
theorem plain_subT (x l : String) (i : Nat) : ∀ t : Term K, (∀ k ∈ keysT t, Plain k) → ∀ k ∈ keysT (subT x l i t), Plain k
  | .lit v, h => by simp [subT, keysT]
  | .var k, h => by
    simp only [subT, keysT, List.mem_singleton, forall_eq] at h ⊢
    exact plain_subKey x l i k h
  | .neg t, h => by simpa [subT, keysT] using plain_subT x l i t (by simpa [keysT] using h)
  | .bin op s t, h => by
    simp only [keysT, List.mem_append] at h
    simp only [subT, keysT, List.mem_append]
    exact fun k hk => hk.elim (plain_subT x l i s (fun k hk => h k (.inl hk)) k) (plain_subT x l i t (fun k hk => h k (.inr hk)) k)
  | .call f args, h => by simpa [subT, keysT] using plain_subTs x l i args (by simpa [keysT] using h)
  | .lane q t xs, h => by
    simp only [keysT, List.mem_append] at h
    simp only [subT, keysT, List.mem_append, List.mem_map]
    rintro k (hk | ⟨k', hk', rfl⟩)
    · exact plain_subT x l i t (fun k hk => h k (.inl hk)) k hk
    · exact plain_subKey x l i k' (h k' (.inr hk'))
  | .sum y m t, h => by simpa [subT, keysT] using plain_subT x l i t (by simpa [keysT] using h)
  | .sumList ts, h => by simpa [subT, keysT] using plain_subTs x l i ts (by simpa [keysT] using h)
theorem plain_subTs (x l : String) (i : Nat) : ∀ t : Terms K, (∀ k ∈ keysTs t, Plain k) → ∀ k ∈ keysTs (subTs x l i t), Plain k
  | .nil, h => by simp [subTs, keysTs]
  | .cons s t, h => by
    simp only [keysTs, List.mem_append] at h
    simp only [subTs, keysTs, List.mem_append]
    exact fun k hk => hk.elim (plain_subT x l i s (fun k hk => h k (.inl hk)) k) (plain_subTs x l i t (fun k hk => h k (.inr hk)) k)
end

mutual
theorem plain_subF (x l : String) (i : Nat) : ∀ f : Fml K, (∀ k ∈ keysF f, Plain k) → ∀ k ∈ keysF (subF x l i f), Plain k
  | .bool b, h => by simp [subF, keysF]
  | .cmp op s t, h => by
    simp only [keysF, List.mem_append] at h
    simp only [subF, keysF, List.mem_append]
    exact fun k hk => hk.elim (plain_subT x l i s (fun k hk => h k (.inl hk)) k) (plain_subT x l i t (fun k hk => h k (.inr hk)) k)
  | .and fs, h => by simpa [subF, keysF] using plain_subFs x l i fs (by simpa [keysF] using h)
  | .or fs, h => by simpa [subF, keysF] using plain_subFs x l i fs (by simpa [keysF] using h)
  | .not f, h => by simpa [subF, keysF] using plain_subF x l i f (by simpa [keysF] using h)
  | .callb f args, h => by simpa [subF, keysF] using plain_subTs x l i args (by simpa [keysF] using h)
  | .red b y m f, h => by simpa [subF, keysF] using plain_subF x l i f (by simpa [keysF] using h)
theorem plain_subFs (x l : String) (i : Nat) : ∀ f : Fmls K, (∀ k ∈ keysFs f, Plain k) → ∀ k ∈ keysFs (subFs x l i f), Plain k
  | .nil, h => by simp [subFs, keysFs]
  | .cons s t, h => by
    simp only [keysFs, List.mem_append] at h
    simp only [subFs, keysFs, List.mem_append]
    exact fun k hk => hk.elim (plain_subF x l i s (fun k hk => h k (.inl hk)) k) (plain_subFs x l i t (fun k hk => h k (.inr hk)) k)
end

theorem keysTs_ofList (ts : List (Term K)) : keysTs (.ofList ts) = ts.flatMap keysT := by
  induction ts with
  | nil => simp [Terms.ofList, keysTs]
  | cons t ts ih => simp [Terms.ofList, keysTs, ih]

theorem keysFs_ofList (ts : List (Fml K)) : keysFs (.ofList ts) = ts.flatMap keysF := by
  induction ts with
  | nil => simp [Fmls.ofList, keysFs]
  | cons t ts ih => simp [Fmls.ofList, keysFs, ih]

theorem keys_sumOp (ts : List (Term K)) : keysT (sumOp ts) = ts.flatMap keysT := by
  rcases ts with _ | ⟨t, _ | ⟨t', ts⟩⟩ <;> simp [sumOp, keysT, keysTs_ofList]

theorem keys_boolOp (b : Bool) (ts : List (Fml K)) : keysF (boolOp b ts) = ts.flatMap keysF := by
  rcases ts with _ | ⟨t, _ | ⟨t', ts⟩⟩ <;> cases b <;> simp [boolOp, keysF, keysFs_ofList]

mutual
theorem plain_unrollT (len : Dict String Nat) : ∀ (t u : Term K), unrollT len t = .ok u → (∀ k ∈ keysT t, Plain k) → ∀ k ∈ keysT u, Plain k
  | .lit v, u, h, hk => by simp only [unrollT] at h; cases h; exact hk
  | .var k, u, h, hk => by simp only [unrollT] at h; cases h; exact hk
  | .neg t, u, h, hk => by
    simp only [unrollT] at h
    obtain ⟨t', ht, rfl⟩ := (map_ok_iff ..).1 h
    simpa [keysT] using plain_unrollT len t t' ht (by simpa [keysT] using hk)
  | .bin op s t, u, h, hk => by
    simp only [unrollT] at h
    obtain ⟨s', hs, h⟩ := (bind_ok_iff ..).1 h
    obtain ⟨t', ht, h⟩ := (bind_ok_iff ..).1 h
    cases h
    simp only [keysT, List.mem_append] at hk ⊢
    exact fun k h => h.elim (plain_unrollT len s s' hs (fun k h => hk k (.inl h)) k) (plain_unrollT len t t' ht (fun k h => hk k (.inr h)) k)
  | .call f args, u, h, hk => by
    simp only [unrollT] at h
    obtain ⟨t', ht, rfl⟩ := (map_ok_iff ..).1 h
    simpa [keysT] using plain_unrollTs len args t' ht (by simpa [keysT] using hk)
  | .lane q t xs, u, h, hk => by
    simp only [unrollT] at h
    obtain ⟨t', ht, rfl⟩ := (map_ok_iff ..).1 h
    simp only [keysT, List.mem_append] at hk ⊢
    exact fun k h => h.elim (plain_unrollT len t t' ht (fun k h => hk k (.inl h)) k) (fun h => hk k (.inr h))
  | .sum x l t, u, h, hk => by
    simp only [unrollT] at h
    obtain ⟨n, _, h⟩ := (bind_ok_iff ..).1 h
    split at h
    · split at h
      · cases h
      · obtain ⟨t', ht, rfl⟩ := (map_ok_iff ..).1 h
        rw [keys_sumOp]
        simp only [List.mem_flatMap, List.mem_map]
        rintro k ⟨_, ⟨i, _, rfl⟩, hm⟩
        exact plain_unrollT len t t' ht (by simpa [keysT] using hk) k hm
    · cases h
      rw [keys_sumOp]
      simp only [List.mem_flatMap, List.mem_map]
      rintro k ⟨_, ⟨i, _, rfl⟩, hm⟩
      exact plain_subT x l i t (by simpa [keysT] using hk) k hm
  | .sumList ts, u, h, hk => by
    simp only [unrollT] at h
    obtain ⟨t', ht, rfl⟩ := (map_ok_iff ..).1 h
    simpa [keysT] using plain_unrollTs len ts t' ht (by simpa [keysT] using hk)
theorem plain_unrollTs (len : Dict String Nat) : ∀ (t u : Terms K), unrollTs len t = .ok u → (∀ k ∈ keysTs t, Plain k) →
    ∀ k ∈ keysTs u, Plain k
  | .nil, u, h, hk => by simp only [unrollTs] at h; cases h; exact hk
  | .cons s t, u, h, hk => by
    simp only [unrollTs] at h
    obtain ⟨s', hs, h⟩ := (bind_ok_iff ..).1 h
    obtain ⟨t', ht, h⟩ := (bind_ok_iff ..).1 h
    cases h
    simp only [keysTs, List.mem_append] at hk ⊢
    exact fun k h => h.elim (plain_unrollT len s s' hs (fun k h => hk k (.inl h)) k) (plain_unrollTs len t t' ht (fun k h => hk k (.inr h)) k)
end

mutual
theorem plain_unrollF (len : Dict String Nat) : ∀ (t u : Fml K), unrollF len t = .ok u → (∀ k ∈ keysF t, Plain k) → ∀ k ∈ keysF u, Plain k
  | .bool v, u, h, hk => by simp only [unrollF] at h; cases h; exact hk
  | .cmp op s t, u, h, hk => by
    simp only [unrollF] at h
    obtain ⟨s', hs, h⟩ := (bind_ok_iff ..).1 h
    obtain ⟨t', ht, h⟩ := (bind_ok_iff ..).1 h
    cases h
    simp only [keysF, List.mem_append] at hk ⊢
    exact fun k h => h.elim (plain_unrollT len s s' hs (fun k h => hk k (.inl h)) k) (plain_unrollT len t t' ht (fun k h => hk k (.inr h)) k)
  | .and fs, u, h, hk => by
    simp only [unrollF] at h
    obtain ⟨t', ht, rfl⟩ := (map_ok_iff ..).1 h
    simpa [keysF] using plain_unrollFs len fs t' ht (by simpa [keysF] using hk)
  | .or fs, u, h, hk => by
    simp only [unrollF] at h
    obtain ⟨t', ht, rfl⟩ := (map_ok_iff ..).1 h
    simpa [keysF] using plain_unrollFs len fs t' ht (by simpa [keysF] using hk)
  | .not f, u, h, hk => by
    simp only [unrollF] at h
    obtain ⟨t', ht, rfl⟩ := (map_ok_iff ..).1 h
    simpa [keysF] using plain_unrollF len f t' ht (by simpa [keysF] using hk)
  | .callb f args, u, h, hk => by
    simp only [unrollF] at h
    obtain ⟨t', ht, rfl⟩ := (map_ok_iff ..).1 h
    simpa [keysF] using plain_unrollTs len args t' ht (by simpa [keysF] using hk)
  | .red b x l t, u, h, hk => by
    simp only [unrollF] at h
    obtain ⟨n, _, h⟩ := (bind_ok_iff ..).1 h
    split at h
    · split at h
      · cases h
      · obtain ⟨t', ht, rfl⟩ := (map_ok_iff ..).1 h
        rw [keys_boolOp]
        simp only [List.mem_flatMap, List.mem_map]
        rintro k ⟨_, ⟨i, _, rfl⟩, hm⟩
        exact plain_unrollF len t t' ht (by simpa [keysF] using hk) k hm
    · cases h
      rw [keys_boolOp]
      simp only [List.mem_flatMap, List.mem_map]
      rintro k ⟨_, ⟨i, _, rfl⟩, hm⟩
      exact plain_subF x l i t (by simpa [keysF] using hk) k hm
theorem plain_unrollFs (len : Dict String Nat) : ∀ (t u : Fmls K), unrollFs len t = .ok u → (∀ k ∈ keysFs t, Plain k) →
    ∀ k ∈ keysFs u, Plain k
  | .nil, u, h, hk => by simp only [unrollFs] at h; cases h; exact hk
  | .cons s t, u, h, hk => by
    simp only [unrollFs] at h
    obtain ⟨s', hs, h⟩ := (bind_ok_iff ..).1 h
    obtain ⟨t', ht, h⟩ := (bind_ok_iff ..).1 h
    cases h
    simp only [keysFs, List.mem_append] at hk ⊢
    exact fun k h => h.elim (plain_unrollF len s s' hs (fun k h => hk k (.inl h)) k) (plain_unrollFs len t t' ht (fun k h => hk k (.inr h)) k)
end

/-! ### The pipeline -/

mutual
theorem asksT_mono (W : World K) (ρ : State K) (P Q : Query → String → List Key → Prop) (h : ∀ q s xs, P q s xs → Q q s xs) :
    ∀ t : Term K, asksT W ρ P t → asksT W ρ Q t
  | .lit _, ha => by simp [asksT]
  | .var _, ha => by simp [asksT]
  | .neg t, ha => by simp only [asksT] at ha ⊢; exact asksT_mono W ρ P Q h t ha
  | .bin _ s t, ha => by simp only [asksT] at ha ⊢; exact ⟨asksT_mono W ρ P Q h s ha.1, asksT_mono W ρ P Q h t ha.2⟩
  | .call _ args, ha => by simp only [asksT] at ha ⊢; exact asksTs_mono W ρ P Q h args ha
  | .lane q l xs, ha => by simp only [asksT] at ha ⊢; exact ⟨asksT_mono W ρ P Q h l ha.1, h _ _ _ ha.2⟩
  | .sum _ _ _, ha => by simp [asksT]
  | .sumList ts, ha => by simp only [asksT] at ha ⊢; exact asksTs_mono W ρ P Q h ts ha
theorem asksTs_mono (W : World K) (ρ : State K) (P Q : Query → String → List Key → Prop) (h : ∀ q s xs, P q s xs → Q q s xs) :
    ∀ t : Terms K, asksTs W ρ P t → asksTs W ρ Q t
  | .nil, ha => by simp [asksTs]
  | .cons s t, ha => by simp only [asksTs] at ha ⊢; exact ⟨asksT_mono W ρ P Q h s ha.1, asksTs_mono W ρ P Q h t ha.2⟩
end

mutual
theorem asksF_mono (W : World K) (ρ : State K) (P Q : Query → String → List Key → Prop) (h : ∀ q s xs, P q s xs → Q q s xs) :
    ∀ t : Fml K, asksF W ρ P t → asksF W ρ Q t
  | .bool _, ha => by simp [asksF]
  | .cmp _ s t, ha => by simp only [asksF] at ha ⊢; exact ⟨asksT_mono W ρ P Q h s ha.1, asksT_mono W ρ P Q h t ha.2⟩
  | .and fs, ha => by simp only [asksF] at ha ⊢; exact asksFs_mono W ρ P Q h fs ha
  | .or fs, ha => by simp only [asksF] at ha ⊢; exact asksFs_mono W ρ P Q h fs ha
  | .not f, ha => by simp only [asksF] at ha ⊢; exact asksF_mono W ρ P Q h f ha
  | .callb _ args, ha => by simp only [asksF] at ha ⊢; exact asksTs_mono W ρ P Q h args ha
  | .red _ _ _ _, ha => by simp [asksF]
theorem asksFs_mono (W : World K) (ρ : State K) (P Q : Query → String → List Key → Prop) (h : ∀ q s xs, P q s xs → Q q s xs) :
    ∀ t : Fmls K, asksFs W ρ P t → asksFs W ρ Q t
  | .nil, ha => by simp [asksFs]
  | .cons s t, ha => by simp only [asksFs] at ha ⊢; exact ⟨asksF_mono W ρ P Q h s ha.1, asksFs_mono W ρ P Q h t ha.2⟩
end

theorem queryOk_of_fits {Seg : Type} (M : Road K Seg) (box : Dict Key (Iv K)) (ρ : State K) (q : Query) (s : String) (xs : List Key)
    (h : QueryFits M box ρ q s xs) : QueryOk M box ρ q s xs := by
  refine ⟨h.1, fun lo hi hc => ?_⟩
  obtain ⟨h1, h2, h3⟩ := h.2 lo hi hc
  unfold Road.dist laneInterval
  rcases h1 with h1 | h1
  · rw [h1] at h2 h3 ⊢
    exact ⟨le_trans (min_le_left _ _) h2, le_trans h3 (le_max_left _ _)⟩
  · rw [h1] at h2 h3 ⊢
    exact ⟨le_trans (min_le_right _ _) h2, le_trans h3 (le_max_right _ _)⟩

theorem evalGuard_ok {Seg : Type} (W : World K) (M : Road K Seg) (S : Solver K) (s₀ s s₂ : Sensed K (Iv K)) (f u : Fml K) (ρ : State K)
    (res : Bool × Bool) (hW : W.dist = M.dist) (hlen : LenSensed W s₀.len) (hd : DiscSensed ρ s₀) (hs : InSensed ρ s)
    (hf : ∀ k ∈ keysF f, Plain k) (hc : ∀ i, Dict.get? s.cont (.tmp i) = none)
    (hu : unrollF s₀.len f = .ok u) (h₂ : addElems s u = .ok s₂)
    (hq : asksF W ρ (QueryFits M s₂.cont ρ) u) (hcor : Correct W S) (h : evalGuard W.fn M S s₀ s f = .ok res) :
    (res.2 = true → evF W ρ f) ∧ (Complete S → evF W ρ f → res.1 = true) := by
  have ev := unrollF_ev W ρ s₀.len hlen f u hu
  have hp := plain_unrollF s₀.len f u hu hf
  unfold evalGuard at h
  rw [hu] at h
  simp only [bind, Except.bind] at h
  cases h1 : addElems s₀ u with
  | error e => rw [h1] at h; cases h
  | ok s₁ =>
    rw [h1] at h
    simp only at h
    have hd1 : HasDisc ρ s₁.disc := ((addElems_ok ρ s₀ s₁ u h1).2.1 hd).disc
    cases h3 : discList W.fn s₁.cont s₁.disc [u] with
    | error e => rw [h3] at h; cases h
    | ok r =>
      rw [h3] at h
      simp only at h
      obtain ⟨d1, d2, d3, d4, d5⟩ := discList_ok W s₁.cont s₁.disc [u] r (by simpa using ev.2) h3
      cases hr : r.1 with
      | false =>
        simp only [hr] at h
        cases h
        have := d2 hr ρ hd1
        simp only [List.mem_singleton, exists_eq_left] at this
        exact ⟨fun hh => by simp at hh, fun _ he => absurd (ev.1.2 he) this⟩
      | true =>
        simp only [hr, if_true, check, h₂, bind, Except.bind] at h
        have hbox : InBox ρ s₂.cont := ((addElems_ok ρ s s₂ u h₂).1 hs).box
        have hno : ∀ i, Dict.get? s₂.cont (.tmp i) = none := fun i => by
          rw [(addElems_ok ρ s s₂ u h₂).2.2 _ (by simp)]; exact hc i
        have hinv : HInv s₂.cont ρ s₂.cont ρ := by
          refine ⟨fun _ _ => rfl, fun _ _ => rfl, hbox, fun i hm => ?_⟩
          have := hno i
          rw [Dict.get?_none_iff] at this
          exact absurd hm this
        have hkeys : ∀ g ∈ r.2, ∀ k ∈ keysF g, Plain k := by
          intro g hg k hk
          rcases d5 k (List.mem_flatMap.2 ⟨g, hg, hk⟩) with ⟨n, rfl⟩ | hm
          · simp [Plain]
          · simp only [List.flatMap_cons, List.flatMap_nil, List.append_nil] at hm
            exact hp k hm
        have hasks := d4 ρ hd1 (QueryOk M s₂.cont ρ) (by
          simp only [List.mem_singleton, forall_eq]
          exact asksF_mono W ρ _ _ (queryOk_of_fits M s₂.cont ρ) u hq)
        cases h4 : hybList M s₁.disc s₂.cont r.2 with
        | error e => rw [h4] at h; cases h
        | ok r2 =>
          rw [h4] at h
          simp only at h
          obtain ⟨_, e2, ρ', e3, _, e5⟩ := hybList_ok W M hW s₁.disc s₂.cont ρ hd1 r.2 s₂.cont ρ r2 d3 hkeys hasks hinv h4
          have hall : (∀ g ∈ r.2, evF W ρ g) ↔ evF W ρ f := by
            rw [d1 hr ρ hd1]; simpa using ev.1
          cases hr2 : r2.1 with
          | false =>
            simp only [hr2] at h
            cases h
            exact ⟨fun hh => by simp at hh, fun _ he => absurd (hall.2 he) (e2 hr2)⟩
          | true =>
            simp only [hr2, if_true] at h
            refine ⟨fun hh => ?_, fun hcomp he => ?_⟩
            · exact hall.1 (e5.1 (contList_contained W S hcor r2.2.2 r2.2.1 res h hh ρ' e3.box))
            · by_contra hne
              have := contList_miss W S hcor hcomp r2.2.2 r2.2.1 res h (by simpa using hne) ρ' e3.box
              exact this (e5.2 (hall.2 he))

end Verif.Grd
