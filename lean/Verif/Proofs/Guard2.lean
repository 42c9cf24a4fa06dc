import Verif.Proofs.Guard1

set_option autoImplicit false
set_option linter.unusedSectionVars false

namespace Verif.Grd

open Verif.Grd.Spec

variable {K : Type} [Field K] [LinearOrder K]

theorem compareVals_ok (op : CmpOp) (a b : Val K) (r : Bool) (h : compareVals op a b = .ok r) : r = true ↔ holds op a b := by
  cases op <;> cases a <;> cases b <;> first | (simp [compareVals] at h; done) | (simp only [compareVals, Except.ok.injEq] at h; subst h; simp [holds])

/-- The only new variables are bare names. -/
def OnlyNames (new old : List Key) : Prop := ∀ k ∈ new, (∃ s, k = .name s) ∨ k ∈ old

theorem OnlyNames.refl (l : List Key) : OnlyNames l l := fun _ hk => .inr hk

theorem OnlyNames.append {a b c d : List Key} (h : OnlyNames a b) (h' : OnlyNames c d) : OnlyNames (a ++ c) (b ++ d) := by
  intro k hk
  simp only [List.mem_append] at hk ⊢
  rcases hk with hk | hk
  · rcases h k hk with h | h
    · exact .inl h
    · exact .inr (.inl h)
  · rcases h' k hk with h | h
    · exact .inl h
    · exact .inr (.inr h)

/-- What the discrete evaluation of a term guarantees. -/
structure DiscT (W : World K) (disc : Dict Key (Val K)) (t : Term K) (r : Option (Val K) × Term K) : Prop where
  same : ∀ ρ, HasDisc ρ disc → evT W ρ r.2 = evT W ρ t
  value : ∀ ρ, HasDisc ρ disc → ∀ a, r.1 = some a → evT W ρ t = a
  noRed : hasRedT r.2 = false
  asks : ∀ ρ, HasDisc ρ disc → ∀ P, asksT W ρ P t → asksT W ρ P r.2
  keys : OnlyNames (keysT r.2) (keysT t)

/-- What the discrete evaluation of terms guarantees. -/
structure DiscTs (W : World K) (disc : Dict Key (Val K)) (t r : Terms K) : Prop where
  same : ∀ ρ, HasDisc ρ disc → evTs W ρ r = evTs W ρ t
  noRed : hasRedTs r = false
  asks : ∀ ρ, HasDisc ρ disc → ∀ P, asksTs W ρ P t → asksTs W ρ P r
  keys : OnlyNames (keysTs r) (keysTs t)

theorem known_some (v a : Val K) (h : known v = some a) : v = a := by
  cases v <;> simp [known] at h <;> exact h

theorem argVals_ok (W : World K) (disc : Dict Key (Val K)) (ρ : State K) (h : HasDisc ρ disc) : ∀ (ts : Terms K) (vs : List (Val K)),
    argVals disc ts = .ok vs → evTs W ρ ts = vs
  | .nil, vs, hv => by simp only [argVals] at hv; cases hv; simp [evTs]
  | .cons t ts, vs, hv => by
    cases t with
    | lit v =>
      simp only [argVals] at hv
      obtain ⟨ws, hw, rfl⟩ := (map_ok_iff ..).1 hv
      simp [evTs, evT, argVals_ok W disc ρ h ts ws hw]
    | var k =>
      simp only [argVals] at hv
      cases hg : Dict.get? disc k with
      | none => simp [hg] at hv
      | some v =>
        cases v with
        | str s =>
          simp only [hg] at hv
          obtain ⟨ws, hw, rfl⟩ := (map_ok_iff ..).1 hv
          simp [evTs, evT, argVals_ok W disc ρ h ts ws hw, h k _ hg]
        | _ => simp [hg] at hv
    | _ => simp [argVals] at hv

theorem ev_litOf (W : World K) (ρ : State K) (v : Val K) : evT W ρ (litOf v) = v := by
  cases v <;> simp [litOf, evT, look]

theorem noRed_litOf (v : Val K) : hasRedT (litOf v) = false := by cases v <;> simp [litOf, hasRedT]

theorem asks_litOf (W : World K) (ρ : State K) (P : Query → String → List Key → Prop) (v : Val K) : asksT W ρ P (litOf v) := by
  cases v <;> simp [litOf, asksT]

theorem keys_litOf (v : Val K) (l : List Key) : OnlyNames (keysT (litOf v)) l := by
  cases v <;> simp [litOf, keysT, OnlyNames]

mutual
theorem discT_ok {V : Type} (W : World K) (cont : Dict Key V) (disc : Dict Key (Val K)) : ∀ (t : Term K) (r : Option (Val K) × Term K),
    hasRedT t = false → discT W.fn cont disc t = .ok r → DiscT W disc t r
  | .lit v, r, _, h => by
    simp only [discT] at h; cases h
    exact ⟨fun _ _ => rfl, fun _ _ a ha => known_some v a ha, by simp [hasRedT], fun _ _ _ h => h, .refl _⟩
  | .var k, r, _, h => by
    simp only [discT] at h
    cases hg : Dict.get? disc k with
    | none =>
      simp only [hg] at h; cases h
      exact ⟨fun _ _ => rfl, fun _ _ a ha => (by cases ha), by simp [hasRedT], fun _ _ _ h => h, .refl _⟩
    | some v =>
      simp only [hg] at h; cases h
      exact ⟨fun _ _ => rfl, fun ρ hρ a ha => by rw [← known_some v a ha]; exact hρ k v hg, by simp [hasRedT], fun _ _ _ h => h, .refl _⟩
  | .neg t, r, hr, h => by
    simp only [discT] at h
    obtain ⟨r', h', rfl⟩ := (map_ok_iff ..).1 h
    have ih := discT_ok W cont disc t r' (by simpa [hasRedT] using hr) h'
    exact ⟨fun ρ hρ => by simp [evT, ih.same ρ hρ], fun _ _ a ha => (by cases ha), by simpa [hasRedT] using ih.noRed,
      fun ρ hρ P h => by simpa [asksT] using ih.asks ρ hρ P (by simpa [asksT] using h), by simpa [keysT] using ih.keys⟩
  | .bin op s t, r, hr, h => by
    simp only [hasRedT, Bool.or_eq_false_iff] at hr
    simp only [discT] at h
    obtain ⟨r1, h1, h⟩ := (bind_ok_iff ..).1 h
    obtain ⟨r2, h2, h⟩ := (bind_ok_iff ..).1 h
    cases h
    have ih1 := discT_ok W cont disc s r1 hr.1 h1
    have ih2 := discT_ok W cont disc t r2 hr.2 h2
    exact ⟨fun ρ hρ => by simp [evT, ih1.same ρ hρ, ih2.same ρ hρ], fun _ _ a ha => (by cases ha),
      by simp [hasRedT, ih1.noRed, ih2.noRed],
      fun ρ hρ P h => by simp only [asksT] at h ⊢; exact ⟨ih1.asks ρ hρ P h.1, ih2.asks ρ hρ P h.2⟩, by simpa [keysT] using ih1.keys.append ih2.keys⟩
  | .call f args, r, hr, h => by
    simp only [discT] at h
    obtain ⟨as, ha, h⟩ := (bind_ok_iff ..).1 h
    have ih := discTs_ok W cont disc args as (by simpa [hasRedT] using hr) ha
    cases hd : discOnly cont disc as with
    | true =>
      simp only [hd, if_true] at h
      obtain ⟨vs, hv, h⟩ := (bind_ok_iff ..).1 h
      cases h
      have e : ∀ ρ, HasDisc ρ disc → evT W ρ (.call f args) = W.fn f vs := fun ρ hρ => by
        simp only [evT]
        rw [← ih.same ρ hρ, argVals_ok W disc ρ hρ as vs hv]
      exact ⟨fun ρ hρ => by simp only [ev_litOf]; rw [e ρ hρ], fun ρ hρ a ha => by rw [e ρ hρ]; exact known_some _ _ ha,
        noRed_litOf _, fun ρ _ P _ => asks_litOf W ρ P _, keys_litOf _ _⟩
    | false =>
      simp only [hd] at h
      cases h
      exact ⟨fun ρ hρ => by simp [evT, ih.same ρ hρ], fun _ _ a ha => (by cases ha), by simpa [hasRedT] using ih.noRed,
        fun ρ hρ P h => by simpa [asksT] using ih.asks ρ hρ P (by simpa [asksT] using h), by simpa [keysT] using ih.keys⟩
  | .lane q k xs, r, hr, h => by
    simp only [discT] at h
    obtain ⟨r', h', h⟩ := (bind_ok_iff ..).1 h
    have ih := discT_ok W cont disc k r' (by simpa [hasRedT] using hr) h'
    by_cases hd : discOnly cont disc (.cons (.lane q r'.2 xs) .nil) = true
    · simp [hd] at h
    · simp only [hd] at h
      cases h
      exact ⟨fun ρ hρ => by simp [evT, ih.same ρ hρ], fun _ _ a ha => (by cases ha), by simpa [hasRedT] using ih.noRed,
        fun ρ hρ P h => by simp only [asksT] at h ⊢; rw [ih.same ρ hρ]; exact ⟨ih.asks ρ hρ P h.1, h.2⟩,
        by simpa [keysT] using ih.keys.append (.refl xs)⟩
  | .sum x l t, r, hr, h => by simp [hasRedT] at hr
  | .sumList ts, r, hr, h => by
    simp only [discT] at h
    by_cases hd : discOnly cont disc ts = true
    · simp [hd] at h
    · simp only [hd] at h
      cases h
      exact ⟨fun ρ hρ => rfl, fun _ _ a ha => (by cases ha), hr, fun _ _ _ h => h, .refl _⟩
theorem discTs_ok {V : Type} (W : World K) (cont : Dict Key V) (disc : Dict Key (Val K)) : ∀ (t r : Terms K),
    hasRedTs t = false → discTs W.fn cont disc t = .ok r → DiscTs W disc t r
  | .nil, r, _, h => by
    simp only [discTs] at h; cases h
    exact ⟨fun _ _ => rfl, by simp [hasRedTs], fun _ _ _ h => h, .refl _⟩
  | .cons t ts, r, hr, h => by
    simp only [hasRedTs, Bool.or_eq_false_iff] at hr
    simp only [discTs] at h
    obtain ⟨r1, h1, h⟩ := (bind_ok_iff ..).1 h
    obtain ⟨r2, h2, h⟩ := (bind_ok_iff ..).1 h
    cases h
    have ih1 := discT_ok W cont disc t r1 hr.1 h1
    have ih2 := discTs_ok W cont disc ts r2 hr.2 h2
    exact ⟨fun ρ hρ => by simp [evTs, ih1.same ρ hρ, ih2.same ρ hρ],
      by simp [hasRedTs, ih1.noRed, ih2.noRed],
      fun ρ hρ P h => by simp only [asksTs] at h ⊢; exact ⟨ih1.asks ρ hρ P h.1, ih2.asks ρ hρ P h.2⟩, by simpa [keysTs] using ih1.keys.append ih2.keys⟩
end

/-- What the discrete evaluation of a formula guarantees. -/
structure DiscF (W : World K) (disc : Dict Key (Val K)) (f : Fml K) (r : Bool × Fml K) : Prop where
  same : ∀ ρ, HasDisc ρ disc → (evF W ρ r.2 ↔ evF W ρ f)
  false' : r.1 = false → ∀ ρ, HasDisc ρ disc → ¬ evF W ρ f
  noRed : hasRedF r.2 = false
  asks : ∀ ρ, HasDisc ρ disc → ∀ P, asksF W ρ P f → asksF W ρ P r.2
  keys : OnlyNames (keysF r.2) (keysF f)

mutual
theorem discF_ok {V : Type} (W : World K) (cont : Dict Key V) (disc : Dict Key (Val K)) : ∀ (f : Fml K) (r : Bool × Fml K),
    hasRedF f = false → discF W.fn cont disc f = .ok r → DiscF W disc f r
  | .bool b, r, _, h => by
    simp only [discF] at h; cases h
    exact ⟨fun _ _ => .rfl, fun hb _ _ => by simp at hb; simp [evF, hb], by simp [hasRedF], fun _ _ _ h => h, .refl _⟩
  | .cmp op s t, r, hr, h => by
    simp only [hasRedF, Bool.or_eq_false_iff] at hr
    simp only [discF] at h
    obtain ⟨r1, h1, h⟩ := (bind_ok_iff ..).1 h
    obtain ⟨r2, h2, h⟩ := (bind_ok_iff ..).1 h
    have ih1 := discT_ok W cont disc s r1 hr.1 h1
    have ih2 := discT_ok W cont disc t r2 hr.2 h2
    have key : ∀ r : Bool × Fml K, Except.ok (true, Fml.cmp op r1.2 r2.2) = (.ok r : Except String _) → DiscF W disc (.cmp op s t) r := by
      intro r h
      cases h
      exact ⟨fun ρ hρ => by simp [evF, ih1.same ρ hρ, ih2.same ρ hρ], fun h => by simp at h,
        by simp [hasRedF, ih1.noRed, ih2.noRed],
        fun ρ hρ P h => by simp only [asksF] at h ⊢; exact ⟨ih1.asks ρ hρ P h.1, ih2.asks ρ hρ P h.2⟩, by simpa [keysF] using ih1.keys.append ih2.keys⟩
    cases e1 : r1.1 with
    | none => simp only [e1] at h; exact key r h
    | some a =>
      cases e2 : r2.1 with
      | none => simp only [e1, e2] at h; exact key r h
      | some b =>
        simp only [e1, e2] at h
        obtain ⟨res, hc, h⟩ := (bind_ok_iff ..).1 h
        cases h
        have e : ∀ ρ, HasDisc ρ disc → (evF W ρ (.cmp op s t) ↔ res = true) := fun ρ hρ => by
          simp only [evF]
          rw [ih1.value ρ hρ a e1, ih2.value ρ hρ b e2, compareVals_ok op a b res hc]
        exact ⟨fun ρ hρ => by rw [e ρ hρ]; simp [evF], fun hb ρ hρ => by rw [e ρ hρ]; simpa using hb, by simp [hasRedF],
          fun _ _ _ _ => by simp [asksF], by simp [keysF, OnlyNames]⟩
  | .and fs, r, hr, h => by
    simp only [discF] at h
    obtain ⟨r', h', h⟩ := (bind_ok_iff ..).1 h
    have ih := discAnd_ok W cont disc fs r' (by simpa [hasRedF] using hr) h'
    cases r' with
    | none =>
      simp only at h
      cases h
      exact ⟨fun ρ hρ => by simp [evF, ih ρ hρ], fun _ ρ hρ => by simpa [evF] using ih ρ hρ, by simp [hasRedF],
        fun _ _ _ _ => by simp [asksF], by simp [keysF, OnlyNames]⟩
    | some fs' =>
      simp only at h
      cases h
      obtain ⟨h1, h2, h4, h3⟩ := ih
      exact ⟨fun ρ hρ => by simpa [evF] using h1 ρ hρ, fun h => by simp at h, by simpa [hasRedF] using h2,
        fun ρ hρ P h => by simpa [asksF] using h4 ρ hρ P (by simpa [asksF] using h), by simpa [keysF] using h3⟩
  | .or fs, r, hr, h => by
    simp only [discF] at h
    obtain ⟨r', h', h⟩ := (bind_ok_iff ..).1 h
    obtain ⟨h1, h2, h3, h5, h4⟩ := discOr_ok W cont disc fs r' (by simpa [hasRedF] using hr) h'
    cases h
    exact ⟨fun ρ hρ => by simpa [evF] using h1 ρ hρ, fun h ρ hρ => by simpa [evF] using h2 h ρ hρ, by simpa [hasRedF] using h3,
      fun ρ hρ P h => by simpa [asksF] using h5 ρ hρ P (by simpa [asksF] using h),
      by simpa [keysF] using h4⟩
  | .not f, r, hr, h => by
    simp only [discF] at h
    obtain ⟨r', h', h⟩ := (bind_ok_iff ..).1 h
    have ih := discF_ok W cont disc f r' (by simpa [hasRedF] using hr) h'
    cases hb : r'.1 with
    | true =>
      simp only [hb, if_true] at h
      cases h
      exact ⟨fun ρ hρ => by simp [evF, ih.same ρ hρ], fun h => by simp at h, by simpa [hasRedF] using ih.noRed,
        fun ρ hρ P h => by simpa [asksF] using ih.asks ρ hρ P (by simpa [asksF] using h), by simpa [keysF] using ih.keys⟩
    | false =>
      simp only [hb] at h
      cases h
      exact ⟨fun ρ hρ => by simp [evF, ih.false' hb ρ hρ], fun h => by simp at h, by simp [hasRedF],
        fun _ _ _ _ => by simp [asksF], by simp [keysF, OnlyNames]⟩
  | .callb f args, r, hr, h => by
    simp only [discF] at h
    obtain ⟨as, ha, h⟩ := (bind_ok_iff ..).1 h
    have ih := discTs_ok W cont disc args as (by simpa [hasRedF] using hr) ha
    cases hd : discOnly cont disc as with
    | true =>
      simp only [hd, if_true] at h
      obtain ⟨vs, hv, h⟩ := (bind_ok_iff ..).1 h
      have e : ∀ ρ, HasDisc ρ disc → (evF W ρ (.callb f args) ↔ W.fn f vs = .bool true) := fun ρ hρ => by
        simp only [evF]
        rw [← ih.same ρ hρ, argVals_ok W disc ρ hρ as vs hv]
      cases hF : W.fn f vs with
      | bool b =>
        simp only [hF] at h e
        cases h
        exact ⟨fun ρ hρ => by rw [e ρ hρ]; simp [evF], fun hb ρ hρ => by rw [e ρ hρ]; simpa using hb, by simp [hasRedF],
          fun _ _ _ _ => by simp [asksF], by simp [keysF, OnlyNames]⟩
      | _ => simp [hF] at h
    | false =>
      simp only [hd] at h
      cases h
      exact ⟨fun ρ hρ => by simp [evF, ih.same ρ hρ], fun h => by simp at h, by simpa [hasRedF] using ih.noRed,
        fun ρ hρ P h => by simpa [asksF] using ih.asks ρ hρ P (by simpa [asksF] using h), by simpa [keysF] using ih.keys⟩
  | .red b x l f, r, hr, h => by simp [hasRedF] at hr
theorem discAnd_ok {V : Type} (W : World K) (cont : Dict Key V) (disc : Dict Key (Val K)) : ∀ (f : Fmls K) (r : Option (Fmls K)),
    hasRedFs f = false → discAnd W.fn cont disc f = .ok r →
    match r with
    | none => ∀ ρ, HasDisc ρ disc → ¬ evAll W ρ f
    | some g => (∀ ρ, HasDisc ρ disc → (evAll W ρ g ↔ evAll W ρ f)) ∧ hasRedFs g = false ∧
      (∀ ρ, HasDisc ρ disc → ∀ P, asksFs W ρ P f → asksFs W ρ P g) ∧ OnlyNames (keysFs g) (keysFs f)
  | .nil, r, _, h => by
    simp only [discAnd] at h; cases h
    exact ⟨fun _ _ => .rfl, by simp [hasRedFs], fun _ _ _ h => h, .refl _⟩
  | .cons f fs, r, hr, h => by
    simp only [hasRedFs, Bool.or_eq_false_iff] at hr
    simp only [discAnd] at h
    obtain ⟨r1, h1, h⟩ := (bind_ok_iff ..).1 h
    have ih1 := discF_ok W cont disc f r1 hr.1 h1
    cases hb : r1.1 with
    | true =>
      simp only [hb, if_true] at h
      obtain ⟨r2, h2, h⟩ := (bind_ok_iff ..).1 h
      have ih2 := discAnd_ok W cont disc fs r2 hr.2 h2
      cases h
      cases r2 with
      | none =>
        intro ρ hρ
        simp [evAll, ih2 ρ hρ]
      | some g =>
        obtain ⟨h1, h2, h4, h3⟩ := ih2
        exact ⟨fun ρ hρ => by simp [evAll, ih1.same ρ hρ, h1 ρ hρ], by simp [hasRedFs, ih1.noRed, h2],
          fun ρ hρ P h => by simp only [asksFs] at h ⊢; exact ⟨ih1.asks ρ hρ P h.1, h4 ρ hρ P h.2⟩,
          by simpa [keysFs] using ih1.keys.append h3⟩
    | false =>
      simp only [hb] at h
      cases h
      intro ρ hρ
      simp [evAll, ih1.false' hb ρ hρ]
theorem discOr_ok {V : Type} (W : World K) (cont : Dict Key V) (disc : Dict Key (Val K)) : ∀ (f : Fmls K) (r : Bool × Fmls K),
    hasRedFs f = false → discOr W.fn cont disc f = .ok r →
    (∀ ρ, HasDisc ρ disc → (evAny W ρ r.2 ↔ evAny W ρ f)) ∧ (r.1 = false → ∀ ρ, HasDisc ρ disc → ¬ evAny W ρ f) ∧
    hasRedFs r.2 = false ∧ (∀ ρ, HasDisc ρ disc → ∀ P, asksFs W ρ P f → asksFs W ρ P r.2) ∧ OnlyNames (keysFs r.2) (keysFs f)
  | .nil, r, _, h => by
    simp only [discOr] at h; cases h
    exact ⟨fun _ _ => .rfl, fun _ _ _ => by simp [evAny], by simp [hasRedFs], fun _ _ _ h => h, .refl _⟩
  | .cons f fs, r, hr, h => by
    simp only [hasRedFs, Bool.or_eq_false_iff] at hr
    simp only [discOr] at h
    obtain ⟨r1, h1, h⟩ := (bind_ok_iff ..).1 h
    obtain ⟨r2, h2, h⟩ := (bind_ok_iff ..).1 h
    have ih1 := discF_ok W cont disc f r1 hr.1 h1
    obtain ⟨i1, i2, i3, i5, i4⟩ := discOr_ok W cont disc fs r2 hr.2 h2
    cases h
    refine ⟨fun ρ hρ => by simp [evAny, ih1.same ρ hρ, i1 ρ hρ], fun h ρ hρ => ?_, by simp [hasRedFs, ih1.noRed, i3],
      fun ρ hρ P h => by simp only [asksFs] at h ⊢; exact ⟨ih1.asks ρ hρ P h.1, i5 ρ hρ P h.2⟩,
      by simpa [keysFs] using ih1.keys.append i4⟩
    simp only [Bool.or_eq_false_iff] at h
    simp [evAny, ih1.false' h.1 ρ hρ, i2 h.2 ρ hρ]
end

/-- `evaluate_guard_disc` on the list of guards. -/
theorem discList_ok {V : Type} (W : World K) (cont : Dict Key V) (disc : Dict Key (Val K)) (fs : List (Fml K)) (r : Bool × List (Fml K))
    (hr : ∀ f ∈ fs, hasRedF f = false) (h : discList W.fn cont disc fs = .ok r) :
    (r.1 = true → ∀ ρ, HasDisc ρ disc → ((∀ f ∈ r.2, evF W ρ f) ↔ ∀ f ∈ fs, evF W ρ f)) ∧
    (r.1 = false → ∀ ρ, HasDisc ρ disc → ∃ f ∈ fs, ¬ evF W ρ f) ∧
    (∀ f ∈ r.2, hasRedF f = false) ∧
    (∀ ρ, HasDisc ρ disc → ∀ P, (∀ f ∈ fs, asksF W ρ P f) → ∀ f ∈ r.2, asksF W ρ P f) ∧ OnlyNames (r.2.flatMap keysF) (fs.flatMap keysF) := by
  induction fs generalizing r with
  | nil => simp only [discList] at h; cases h; simp [OnlyNames]
  | cons f fs ih =>
    simp only [discList] at h
    obtain ⟨r1, h1, h⟩ := (bind_ok_iff ..).1 h
    have ih1 := discF_ok W cont disc f r1 (hr f (by simp)) h1
    cases hb : r1.1 with
    | true =>
      simp only [hb, if_true] at h
      obtain ⟨r2, h2, h⟩ := (bind_ok_iff ..).1 h
      cases h
      obtain ⟨i1, i2, i3, i5, i4⟩ := ih r2 (fun f hf => hr f (by simp [hf])) h2
      refine ⟨fun h ρ hρ => ?_, fun h ρ hρ => ?_, ?_, fun ρ hρ P h => ?_, ?_⟩
      · simp [ih1.same ρ hρ, i1 h ρ hρ]
      · obtain ⟨g, hg, h⟩ := i2 h ρ hρ
        exact ⟨g, by simp [hg], h⟩
      · simpa [ih1.noRed] using i3
      · simp only [List.mem_cons, forall_eq_or_imp] at h ⊢
        exact ⟨ih1.asks ρ hρ P h.1, i5 ρ hρ P h.2⟩
      · simpa using ih1.keys.append i4
    | false =>
      simp only [hb] at h
      cases h
      refine ⟨fun h => by simp at h, fun _ ρ hρ => ⟨f, by simp, ih1.false' hb ρ hρ⟩, ?_, fun ρ hρ P h => ?_, ?_⟩
      · simp only [List.mem_cons, forall_eq_or_imp]
        exact ⟨ih1.noRed, fun g hg => hr g (by simp [hg])⟩
      · simp only [List.mem_cons, forall_eq_or_imp] at h ⊢
        exact ⟨ih1.asks ρ hρ P h.1, h.2⟩
      · simpa using ih1.keys.append (.refl (fs.flatMap keysF))

end Verif.Grd
