import Verif.Proofs.StarInc
import Verif.Props.Star

/-!
C116: the option `incremental` does not change the tubes of star sets.
-/

set_option autoImplicit false
set_option linter.unusedSectionVars false

namespace Verif.Props
open Verif Verif.Stars Verif.StarInc Verif.StarInc.Spec

variable {K : Type} [Field K] [LinearOrder K] [IsStrictOrderedRing K]

/-- Without the option the tube of an agent does not depend on the cache, the counters of hits stay as they are, and the tube contains all states that are reached from
any of the initial stars. Missing: the option itself (`C116_incremental_violated`); more initial stars than `init_seg_length` (`C64_segments_violated`). -/
theorem C116_plain_partial (hit hit' : StarSet K → Except String (Option (Tube K))) (combine : List (StarSet K) → Except String (StarSet K))
    (reach : StarSet K → Except String (Tube K)) (segLen : Nat) (inits : List (StarSet K)) (hits : Nat × Nat) (flow : Nat → (Nat → K) → (Nat → K))
    (hreach : SoundFrom reach flow) (hcomb : SoundUnion combine inits) (hlen : inits.length ≤ segLen) (tube : Tube K) (hits' : Nat × Nat)
    (h : agentTube false hit combine reach segLen inits hits = .ok (tube, hits')) :
    agentTube false hit' combine reach segLen inits hits = .ok (tube, hits') ∧ hits' = hits ∧ inits ≠ [] ∧ CoversAll inits flow tube := by
  have h2 := h
  simp only [agentTube, Bool.false_eq_true, if_false] at h2
  obtain ⟨t, ht, e⟩ := (map_ok_iff _ _ _).1 h2
  injection e with e1 e2
  subst e1 e2
  cases inits with
  | nil => unfold fullStars at ht; split at ht <;> cases ht
  | cons s ss =>
    refine ⟨h, rfl, List.cons_ne_nil _ _, ?_⟩
    rw [fullStars_one combine reach segLen s ss hlen] at ht
    obtain ⟨c, hc, hr⟩ := (bind_ok_iff _ _ _).1 ht
    intro s' hs' x hx k e he
    refine hreach c _ hr x ?_ k e he
    unfold segmentStar at hc
    split at hc
    · exact hcomb c hc s' hs' x hx
    · next hn =>
      cases hc
      cases ss with
      | nil => rw [List.mem_singleton.1 hs'] at hx; exact hx
      | cons a ss => simp at hn

/-- With the operations of the code: the rectangle around several stars and the tube of that rectangle by bloating are enough, if bloating is sound. -/
theorem C116_bloated_partial (lp : Bool → Vec K → Mat K → Vec K → LPRes K) (hlp : LPCorrect lp) (box : List (K × K) → Except String (Mat K × Vec K)) (hbox : BoxCorrect box)
    (bloat : List K → List K → Except String (List (K × List K))) (n : Nat) (flow : Nat → (Nat → K) → (Nat → K))
    (hbloat : ∀ lo hi tube, bloat lo hi = .ok tube → lo.length = n → hi.length = n → ∀ x : Nat → K,
      (∀ (d : Nat) (l u : K), lo[d]? = some l → hi[d]? = some u → l ≤ x d ∧ x d ≤ u) →
      ∀ (k : Nat) (a b : K × List K), tube[2 * k]? = some a → tube[2 * k + 1]? = some b → ∀ (d : Nat) (l u : K), a.2[d]? = some l → b.2[d]? = some u →
        l ≤ flow k x d ∧ flow k x d ≤ u)
    (hit : StarSet K → Except String (Option (Tube K))) (segLen : Nat) (inits : List (StarSet K)) (hs : ∀ s ∈ inits, Built s ∧ s.center.len = n) (hits : Nat × Nat)
    (hlen : inits.length ≤ segLen) (tube : Tube K) (hits' : Nat × Nat)
    (h : agentTube false hit (combineStars lp box) (reachRect lp box bloat) segLen inits hits = .ok (tube, hits')) : CoversAll inits flow tube := by
  simp only [agentTube, Bool.false_eq_true, if_false] at h
  obtain ⟨t, ht, e⟩ := (map_ok_iff _ _ _).1 h
  injection e with e1 e2
  subst e1
  cases inits with
  | nil => unfold fullStars at ht; split at ht <;> cases ht
  | cons s ss =>
    rw [fullStars_one _ _ segLen s ss hlen] at ht
    obtain ⟨c, hc, hr⟩ := (bind_ok_iff _ _ _).1 ht
    have hcov : Built c ∧ c.center.len = n ∧ ∀ s' ∈ s :: ss, ∀ x, InStar s' x → InStar c x := by
      unfold segmentStar at hc
      split at hc
      · obtain ⟨h1, h2, h3, _⟩ := C42_combine lp hlp box hbox n (s :: ss) hs c hc
        exact ⟨h1, h2, h3⟩
      · next hn =>
        cases hc
        refine ⟨(hs s (List.mem_cons_self ..)).1, (hs s (List.mem_cons_self ..)).2, fun s' hs' x hx => ?_⟩
        cases ss with
        | nil => rw [List.mem_singleton.1 hs'] at hx; exact hx
        | cons a ss => simp at hn
    obtain ⟨lo, hi, tb, hb, l1, l2, hin, _, hrows⟩ := C42_rectangle_tube lp hlp box hbox bloat c hcov.1 t hr
    intro s' hs' x hx k e he
    obtain ⟨a, b, ha, hb', _, hiff⟩ := hrows k e he
    exact (hiff _).2 (hbloat lo hi tb hb (l1.trans hcov.2.1) (l2.trans hcov.2.1) x (hin x (hcov.2.2 s' hs' x hx)) k a b ha hb')

/-- With the option no tube is ever computed, whatever is in the cache: every call raises. -/
theorem C116_incremental_violated (hit : StarSet K → Except String (Option (Tube K))) (combine : List (StarSet K) → Except String (StarSet K))
    (reach : StarSet K → Except String (Tube K)) (segLen : Nat) (inits : List (StarSet K)) (hits : Nat × Nat) :
    ¬ ∃ r, agentTube true hit combine reach segLen inits hits = .ok r := by
  rintro ⟨r, h⟩
  simp only [agentTube, if_true] at h
  obtain ⟨c, _, h⟩ := (bind_ok_iff _ _ _).1 h
  obtain ⟨t, ht, _⟩ := (map_ok_iff _ _ _).1 h
  exact incStars_error _ _ _ _ _ _ ht

/-- Two initial stars raise already when the cache is asked, unless each is in a segment of its own. -/
theorem C116_two_stars_violated (hit : StarSet K → Except String (Option (Tube K))) (segLen : Nat) (s s' : StarSet K) (ss : List (StarSet K)) (hits : Nat × Nat)
    (hseg : 2 ≤ segLen) : checkStars hit segLen (s :: s' :: ss) hits = .error "IndexError" := by
  obtain ⟨m, rfl⟩ : ∃ m, segLen = m + 2 := ⟨segLen - 2, by omega⟩
  rfl

/-- For a single initial star and an empty cache the check counts one miss and asks for the tube. -/
theorem C116_first_miss (segLen : Nat) (s : StarSet K) (hits : Nat × Nat) (hseg : 1 ≤ segLen) :
    checkStars (fun _ => .ok none) segLen [s] hits = .ok ([0], (hits.1, hits.2 + 1)) := by
  obtain ⟨m, rfl⟩ : ∃ m, segLen = m + 1 := ⟨segLen - 1, by omega⟩
  simp [checkStars, checkLoop, checkSegment, combineArrays, Except.bind, Except.map]

/-- With segments of one star and an empty cache, every star is a miss and its tube is asked for. -/
theorem C116_all_miss (inits : List (StarSet K)) (hits : Nat × Nat) :
    checkStars (fun _ => .ok none) 1 inits hits = .ok (List.range inits.length, (hits.1, hits.2 + inits.length)) := by
  have gen : ∀ (inits : List (StarSet K)) (idx : Nat) (hits : Nat × Nat),
      checkLoop (fun _ => .ok none) 1 inits.length idx inits hits = .ok (List.range' idx inits.length, (hits.1, hits.2 + inits.length)) := by
    intro inits
    induction inits with
    | nil => intro idx hits; rfl
    | cons s ss ih =>
      intro idx hits
      have := ih (idx + 1) (hits.1, hits.2 + 1)
      simp only [List.length_cons, checkLoop, checkSegment, List.take_succ_cons, List.take_zero, List.drop_succ_cons, List.drop_zero, combineArrays, Except.bind, this, Except.map]
      rw [List.range'_succ]
      simp only [Nat.add_assoc, Nat.add_comm 1]
  simp only [checkStars, Nat.one_ne_zero, if_false, gen, List.range_eq_range']

/-- A star that is in the cache raises when the cache is asked: a tube of stars has no `shape`. -/
theorem C116_hit_violated (hit : StarSet K → Except String (Option (Tube K))) (segLen : Nat) (s : StarSet K) (t : Tube K) (hits : Nat × Nat) (hseg : 1 ≤ segLen)
    (hh : hit s = .ok (some t)) : checkStars hit segLen [s] hits = .error "AttributeError" := by
  obtain ⟨m, rfl⟩ : ∃ m, segLen = m + 1 := ⟨segLen - 1, by omega⟩
  simp [checkStars, checkLoop, checkSegment, combineArrays, Except.bind, hh]

/-- A segment length of 0 raises with the option and without it. -/
theorem C116_no_segments (incremental : Bool) (hit : StarSet K → Except String (Option (Tube K))) (combine : List (StarSet K) → Except String (StarSet K))
    (reach : StarSet K → Except String (Tube K)) (inits : List (StarSet K)) (hits : Nat × Nat) : agentTube incremental hit combine reach 0 inits hits = .error "ValueError" := by
  cases incremental <;> simp [agentTube, checkStars, fullStars, Except.bind, Except.map]

/-- A segment that stands still: without the option the tube is found, with it `NameError` is raised. -/
example : agentTube false (fun _ => .ok none) (combineStars idealLP stdBox) (fun s => .ok [(0, s)]) 1000 [seg] (0, 0) = .ok ([(0, seg)], (0, 0)) ∧
    agentTube true (fun _ => .ok none) (combineStars idealLP stdBox) (fun s => .ok [(0, s)]) 1000 [seg] (0, 0) = .error "NameError" := ⟨rfl, rfl⟩

/-- The conditions of `C116_plain_partial` for a system that stands still. -/
example : SoundFrom (fun s : StarSet ℚ => .ok [(0, s)]) (fun _ x => x) := by
  intro s tube h x hx k e he
  cases h
  cases k with
  | zero => simp at he; rw [← he]; exact hx
  | succ k => simp at he

example (hs : ∀ s ∈ [seg, seg], Built s ∧ s.center.len = 1) : SoundUnion (combineStars idealLP stdBox) [seg, seg] := fun c hc s h x hx =>
  (C42_combine idealLP idealLP_correct stdBox stdBox_correct 1 [seg, seg] hs c hc).2.2.1 s h x hx

example : ∀ s ∈ [seg, seg], Built s ∧ s.center.len = 1 := by
  intro s hs
  simp at hs
  subst hs
  exact ⟨seg_built, rfl⟩

end Verif.Props
