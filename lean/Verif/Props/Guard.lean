import Verif.Proofs.Guard4
import Verif.Model.Road
import Verif.Props.Lane

/-!
Properties of guard evaluation: C16, C20, C21, C22, C23.
-/

set_option autoImplicit false
set_option linter.unusedSectionVars false

namespace Verif.Props

open Verif.Grd Verif.Grd.Spec

section
variable {K : Type} [Field K] [LinearOrder K] [IsStrictOrderedRing K]

/-- **C16**, in the verifier (partial: a guard with one `any`/`all`/`sum` inside another is refused, `C16_nested_violated`). If the guard is
unrolled, the result has the truth of the original one in every state, for every number of elements, including none; and nothing is left
to unroll. -/
theorem C16_unrolling_exact_partial (W : World K) (len : Dict String Nat) (hlen : LenSensed W len) (f u : Fml K)
    (h : unrollF len f = .ok u) : (∀ ρ : State K, evF W ρ u ↔ evF W ρ f) ∧ hasRedF u = false :=
  ⟨fun ρ => (unrollF_ev W ρ len hlen f u h).1, (unrollF_ev W (fun _ => .bool true) len hlen f u h).2⟩

/-- `any(other.x > ego.x for other in others)` -/
def exAny : Fml ℚ := .red false "other" "others" (.cmp .gt (.var (.attr "other" "x")) (.var (.attr "ego" "x")))

/-- With two others, and with none. -/
example : unrollF [("others", 2)] exAny =
      .ok (.or (.cons (.cmp .gt (.var (.elem "others" 0 "x")) (.var (.attr "ego" "x")))
        (.cons (.cmp .gt (.var (.elem "others" 1 "x")) (.var (.attr "ego" "x"))) .nil))) ∧
    unrollF [("others", 0)] exAny = .ok (.or .nil) := by decide +kernel

/-- C16 fails for nested reductions: if the element of an `any`/`all` contains another reduction and mentions the variable of the outer one,
the verifier cannot unroll the guard as soon as the list has an element. -/
theorem C16_nested_violated (len : Dict String Nat) (b : Bool) (x l : String) (f : Fml K) (n : Nat) (a : String)
    (hl : Dict.get? len l = some (n + 1)) (hf : hasRedF f = true) (hx : Key.attr x a ∈ keysF f) :
    unrollF len (.red b x l f) = .error "AttributeError" := by
  have h : (keysF f).any (isAttrOf x) = true := List.any_eq_true.2 ⟨_, hx, by simp [isAttrOf]⟩
  simp [unrollF, lenOf, hl, hf, h, bind, Except.bind]

/-- `any(any(a.x > b.x for b in others) for a in others)` -/
def exNested : Fml ℚ := .red false "a" "others" (.red false "b" "others" (.cmp .gt (.var (.attr "a" "x")) (.var (.attr "b" "x"))))

/-- This guard holds when the first of two others is ahead of the second, but the verifier cannot unroll it. -/
example : unrollF [("others", 2)] exNested = .error "AttributeError" ∧
    ∀ (W : World ℚ) (ρ : State ℚ), W.len "others" = 2 → ρ (.elem "others" 0 "x") = .num 2 → ρ (.elem "others" 1 "x") = .num 1 → evF W ρ exNested := by
  refine ⟨C16_nested_violated _ _ _ _ _ 1 "x" rfl rfl (by decide +kernel), fun W ρ hl h0 h1 => ?_⟩
  simp only [exNested, evF]
  refine ⟨0, by omega, 1, by omega, ?_⟩
  simp [evT, look, bindTo, h0, h1, holds]

/-- Nested reductions are unrolled if the variable of the outer one does not occur. -/
example : unrollF [("others", 2), ("signs", 1)]
      (.red true "a" "others" (.red false "b" "signs" (.cmp .gt (.var (.attr "b" "x")) (.lit (.num (3 : ℚ)))))) =
    .ok (.and (.cons (.cmp .gt (.var (.elem "signs" 0 "x")) (.lit (.num 3)))
      (.cons (.cmp .gt (.var (.elem "signs" 0 "x")) (.lit (.num 3))) .nil))) := by decide +kernel

/-- **C20**. Evaluating the discrete part of a guard: if it is not ruled out, the new guard has the truth of the original one in every
state with the sensed modes, whatever the continuous variables are, and no comparison between known values is left; if it is ruled
out, the original guard is false in every such state. -/
theorem C20_discrete_evaluation_exact {V : Type} (W : World K) (cont : Dict Key V) (disc : Dict Key (Val K)) (fs gs : List (Fml K))
    (b : Bool) (hfs : ∀ f ∈ fs, hasRedF f = false) (h : discList W.fn cont disc fs = .ok (b, gs)) :
    (b = true → (∀ ρ : State K, HasDisc ρ disc → ((∀ g ∈ gs, evF W ρ g) ↔ ∀ f ∈ fs, evF W ρ f)) ∧ ∀ g ∈ gs, Resolved disc g) ∧
    (b = false → ∀ ρ : State K, HasDisc ρ disc → ¬ ∀ f ∈ fs, evF W ρ f) := by
  obtain ⟨h1, h2, _⟩ := discList_ok W cont disc fs (b, gs) hfs h
  refine ⟨fun hb => ⟨h1 hb, discList_resolved W.fn cont disc fs (b, gs) h hb⟩, fun hb ρ hρ hall => ?_⟩
  obtain ⟨f, hf, hn⟩ := h2 hb ρ hρ
  exact hn (hall f hf)

/-- `ego.mode == "Normal" and ego.x > 3`; the comparison of the mode is decided. -/
def exDisc : Fml ℚ := .and (.cons (.cmp .eq (.var (.attr "ego" "mode")) (.lit (.str "Normal")))
  (.cons (.cmp .gt (.var (.attr "ego" "x")) (.lit (.num 3))) .nil))

example : discList (V := Iv ℚ) (fun _ _ => .bool true) [(.attr "ego" "x", (1, 5))] [(.attr "ego" "mode", .str "Normal")] [exDisc] =
      .ok (true, [.and (.cons (.bool true) (.cons (.cmp .gt (.var (.attr "ego" "x")) (.lit (.num 3))) .nil))]) ∧
    discList (V := Iv ℚ) (fun _ _ => .bool true) [(.attr "ego" "x", (1, 5))] [(.attr "ego" "mode", .str "Brake")] [exDisc] =
      .ok (false, [.bool false]) := by decide +kernel

/-- **C21**. The query generated for the solver has the truth of the guard in every state. -/
theorem C21_solver_query_exact (W : World K) (fs : List (Fml K)) (r : ZRes K) (h : genList fs = .ok r) (ρ : State K) :
    evRes W ρ r ↔ ∀ f ∈ fs, evF W ρ f := genList_ok W ρ fs r h

example : genList [Fml.and (.cons (.bool true) (.cons (.cmp .gt (.var (.attr "ego" "x")) (.lit (.num (3 : ℚ)))) .nil)),
      .not (.or .nil)] =
    .ok (.inr (.and (.cons (.cmp .gt (.var (.attr "ego" "x")) (.lit (.num 3))) (.cons (.not (.or .nil)) .nil)))) := by decide +kernel

/-- **C22**. With a solver that is right and never gives up: a guard without lane queries may be hit in a box exactly if it holds in some
state of the box, and it is contained exactly if it holds in every state of the box. -/
theorem C22_box_check_exact (W : World K) (S : Solver K) (hc : Correct W S) (hcomp : Complete S) (box : Dict Key (Iv K))
    (hb : ProperBox box) (fs : List (Fml K)) (hit contained : Bool) (h : contList S box fs = .ok (hit, contained)) :
    (hit = true ↔ ∃ ρ : State K, InBox ρ box ∧ ∀ f ∈ fs, evF W ρ f) ∧
    (contained = true ↔ ∀ ρ : State K, InBox ρ box → ∀ f ∈ fs, evF W ρ f) := by
  constructor
  · constructor
    · intro ht
      rcases contList_cases S box fs _ h with ⟨b, hg, he⟩ | ⟨z, hg, _, hw, ⟨hs, he⟩ | ⟨_, he⟩⟩
      · simp only [Prod.mk.injEq] at he
        obtain ⟨ρ, hρ⟩ := box_state box hb
        refine ⟨ρ, hρ, (genList_ok W ρ fs _ hg).1 ?_⟩
        simp [evRes, ← he.1, ht]
      · obtain ⟨ρ, hρ, hz⟩ := sat_state W S hc box hb z hw hs
        exact ⟨ρ, hρ, (genList_ok W ρ fs _ hg).1 hz⟩
      · simp only [Prod.mk.injEq] at he
        rw [he.1] at ht; cases ht
    · rintro ⟨ρ, hρ, hf⟩
      by_contra hne
      exact contList_miss W S hc hcomp box fs _ h (by simpa using hne) ρ hρ hf
  · constructor
    · intro ht ρ hρ
      exact contList_contained W S hc box fs _ h ht ρ hρ
    · intro hall
      rcases contList_cases S box fs _ h with ⟨b, hg, he⟩ | ⟨z, hg, _, hw, ⟨hs, he⟩ | ⟨hs, he⟩⟩
      · simp only [Prod.mk.injEq] at he
        obtain ⟨ρ, hρ⟩ := box_state box hb
        have := (genList_ok W ρ fs _ hg).2 (hall ρ hρ)
        rw [he.2]; exact this
      · simp only [Prod.mk.injEq] at he
        rw [he.2, decide_eq_true_eq]
        cases hn : S (.not z) (bounds box z) with
        | unsat => rfl
        | unknown => exact absurd hn (hcomp _ _ (wf_not z hw))
        | sat =>
          have hb' : bounds box z = bounds box (.not z) := by simp [bounds, ZFml.keys]
          rw [hb'] at hn
          obtain ⟨ρ, hρ, hz⟩ := sat_state W S hc box hb (.not z) (wf_not z hw) hn
          simp only [evZ] at hz
          exact absurd ((genList_ok W ρ fs _ hg).2 (hall ρ hρ)) hz
      · obtain ⟨ρ, hρ⟩ := box_state box hb
        have hz : evZ W ρ z := (genList_ok W ρ fs _ hg).2 (hall ρ hρ)
        have : S z (bounds box z) = .unsat := by
          have := hcomp z (bounds box z) hw
          cases h : S z (bounds box z) <;> simp_all
        exact absurd hz ((hc z _ hw).2 this ρ (inBox_bounds ρ box hρ z))

open Classical in
/-- A solver that is right and never gives up. -/
noncomputable def idealSolver (W : World K) : Solver K := fun z bs =>
  if ∃ ρ : State K, (∀ b ∈ bs, Within ρ b.1 b.2) ∧ evZ W ρ z then .sat else .unsat

theorem idealSolver_ok (W : World K) : Correct W (idealSolver W) ∧ Complete (idealSolver W) := by
  classical
  refine ⟨fun z bs _ => ⟨fun h => ?_, fun h ρ hb hz => ?_⟩, fun z bs _ h => ?_⟩
  · unfold idealSolver at h
    split at h
    · assumption
    · cases h
  · unfold idealSolver at h
    rw [if_pos ⟨ρ, hb, hz⟩] at h
    cases h
  · unfold idealSolver at h
    split at h <;> cases h

/-- A box, and a guard that is hit but not contained, with the ideal solver. -/
example : ProperBox [(Key.attr "ego" "x", ((1 : ℚ), 5))] ∧
    (contList (idealSolver ⟨fun _ _ => .bool true, fun _ => 0, fun _ _ _ => 0⟩) [(Key.attr "ego" "x", ((1 : ℚ), 5))]
      [.cmp .gt (.var (.attr "ego" "x")) (.lit (.num 3))]).isOk = true := by
  constructor
  · constructor
    · intro s; simp [Dict.get?]
    · intro k iv h
      rw [Dict.get?_cons] at h
      split at h
      · cases h; norm_num
      · simp at h
  · unfold contList
    have : genList [Fml.cmp .gt (.var (.attr "ego" "x")) (.lit (.num (3 : ℚ)))] =
        .ok (.inr (.cmp .gt (.var (.attr "ego" "x")) (.lit (.num 3)))) := by decide +kernel
    rw [this]
    simp only [bind, Except.bind]
    rw [if_neg (by decide +kernel), if_neg (by decide +kernel)]
    split <;> rfl

/-- **C22**, violated without the assumption on the solver: an undecided query counts as "not hit" (guard.py:241), so the guard
`ego.x > 0` is missed in a box where it always holds. -/
theorem C22_undecided_query_violated : ∃ (W : World ℚ) (S : Solver ℚ) (box : Dict Key (Iv ℚ)) (fs : List (Fml ℚ)),
    Correct W S ∧ contList S box fs = .ok (false, false) ∧
    (∃ ρ : State ℚ, InBox ρ box ∧ ∀ f ∈ fs, evF W ρ f) := by
  refine ⟨⟨fun _ _ => .bool true, fun _ => 0, fun _ _ _ => 0⟩, fun _ _ => .unknown, [(.attr "ego" "x", (1, 2))],
    [.cmp .gt (.var (.attr "ego" "x")) (.lit (.num 0))], fun z bs _ => ⟨fun h => (by cases h), fun h => (by cases h)⟩,
    by decide +kernel, fun _ => .num 1, ?_, ?_⟩
  · intro k iv h
    rw [Dict.get?_cons] at h
    split at h
    · rename_i e
      cases h
      exact ⟨1, by subst e; rfl, by norm_num, by norm_num⟩
    · simp at h
  · simp [evF, evT, look, holds]

/-- **C23** (partial: every lane query of the guard is answered from a segment found at the lower or the upper corner of the rectangle,
and the enclosure on it is right; a complete solver for the second half). Whatever the
verifier answers for a rectangle is right for every state in it: if it answers "contained", the guard holds there; and if the guard
holds there, it answers "may be hit". The modes are the ones sensed at the first rectangle of the tube. -/
theorem C23_guard_pipeline_partial {Seg : Type} (W : World K) (M : Road K Seg) (S : Solver K) (s₀ s s₂ : Sensed K (Iv K)) (f u : Fml K)
    (ρ : State K) (hit contained : Bool) (hmap : W.dist = M.dist) (hlen : LenSensed W s₀.len) (hd : DiscSensed ρ s₀)
    (hs : InSensed ρ s) (hf : ∀ k ∈ keysF f, Plain k) (hc : ∀ i, Dict.get? s.cont (.tmp i) = none)
    (hu : unrollF s₀.len f = .ok u) (h₂ : addElems s u = .ok s₂) (hq : asksF W ρ (QueryFits M s₂.cont ρ) u) (hcor : Correct W S)
    (h : evalGuard W.fn M S s₀ s f = .ok (hit, contained)) :
    (contained = true → evF W ρ f) ∧ (Complete S → evF W ρ f → hit = true) :=
  evalGuard_ok W M S s₀ s s₂ f u ρ (hit, contained) hmap hlen hd hs hf hc hu h₂ hq hcor h

omit [IsStrictOrderedRing K] in
theorem corners_cons (box : Dict Key (Iv K)) (k : Key) (ks : List Key) (lo hi : List K) (h : corners box (k :: ks) = .ok (lo, hi)) :
    ∃ iv l' h', Dict.get? box k = some iv ∧ corners box ks = .ok (l', h') ∧ lo = iv.1 :: l' ∧ hi = iv.2 :: h' := by
  simp only [corners] at h
  cases hg : Dict.get? box k with
  | none => simp [hg] at h
  | some iv =>
    simp only [hg] at h
    obtain ⟨r, hr, he⟩ := (map_ok_iff ..).1 h
    simp only [Prod.mk.injEq] at he
    exact ⟨iv, r.1, r.2, rfl, hr, he.1.symm, he.2.symm⟩

/-- **C23** on maps of straight lanes (partial as before, but the enclosures are right: only the segments remain). -/
theorem C23_straight_map_query_partial (lanes : Dict String (List (Lane.Straight K))) (box : Dict Key (Iv K)) (ρ : State K) (q : Query)
    (lane : String) (x y : Key) (hbox : InBox ρ box)
    (hphys : (straightRoad lanes).phys ((straightRoad lanes).phys lane) = (straightRoad lanes).phys lane)
    (hseg : ∀ lo hi, corners box [x, y] = .ok (lo, hi) → ∃ s,
      (straightRoad lanes).segment ((straightRoad lanes).phys lane) [toNum (look ρ x), toNum (look ρ y)] = some s ∧
      (some s = (straightRoad lanes).segment ((straightRoad lanes).phys lane) lo ∨
        some s = (straightRoad lanes).segment ((straightRoad lanes).phys lane) hi)) :
    QueryFits (straightRoad lanes) box ρ q lane [x, y] := by
  refine ⟨hphys, fun lo hi hc => ?_⟩
  obtain ⟨s, hs, hor⟩ := hseg lo hi hc
  obtain ⟨iv, l', h', g1, hc', rfl, rfl⟩ := corners_cons box x [y] lo hi hc
  obtain ⟨iv', l'', h'', g2, hc'', rfl, rfl⟩ := corners_cons box y [] l' h' hc'
  simp only [corners, Except.ok.injEq, Prod.mk.injEq] at hc''
  obtain ⟨rfl, rfl⟩ := hc''
  obtain ⟨a, ha, a1, a2⟩ := hbox x iv g1
  obtain ⟨b, hb, b1, b2⟩ := hbox y iv' g2
  simp only [List.map_cons, List.map_nil, ha, hb, toNum] at hs ⊢
  rw [hs]
  refine ⟨hor, ?_⟩
  have key := C24_straight_lane_enclosures s (iv.1, iv'.1) (iv.2, iv'.2) (le_trans a1 a2) (le_trans b1 b2)
  cases q with
  | lateral => exact key.2.1 (a, b) ⟨a1, a2, b1, b2⟩
  | longitudinal => exact key.1.1 (a, b) ⟨a1, a2, b1, b2⟩

end

/-! ### A map with three segments -/

/-- One lane that goes along the x axis, bends to the left, and goes on parallel to the x axis. -/
def bend : Dict String (List (Lane.Straight ℚ)) :=
  [("T0", [⟨(0, 0), (1, 0), 10, 0⟩, ⟨(10, 0), (4/5, 3/5), 5, 10⟩, ⟨(14, 3), (1, 0), 10, 15⟩])]

/-- `track_map.get_lateral_distance(ego.track_mode, [ego.x, ego.y]) > c` -/
def latAbove (c : ℚ) : Fml ℚ :=
  .cmp .gt (.lane .lateral (.var (.attr "ego" "track_mode")) [.attr "ego" "x", .attr "ego" "y"]) (.lit (.num c))

/-- What is sensed for a rectangle. -/
def sensedRect (x0 x1 y0 y1 : ℚ) : Sensed ℚ (Iv ℚ) :=
  ⟨[(.attr "ego" "x", (x0, x1)), (.attr "ego" "y", (y0, y1))], [], [(.attr "ego" "track_mode", .str "T0")], [], [("others", 0)]⟩

/-- A state at a position. -/
def stateAt (x y : ℚ) : State ℚ := fun k =>
  if k = .attr "ego" "x" then .num x else if k = .attr "ego" "y" then .num y else .str "T0"

/-- The functions and the map. -/
def bendWorld : World ℚ := ⟨fun _ _ => .bool true, fun _ => 0, (straightRoad bend).dist⟩

/-- The pipeline up to the solver. -/
theorem bend_eval (S : Solver ℚ) (x0 x1 y0 y1 c : ℚ) (iv : Iv ℚ)
    (hiv : laneInterval (straightRoad bend) .lateral "T0" [x0, y0] [x1, y1] = iv) :
    evalGuard bendWorld.fn (straightRoad bend) S (sensedRect x0 x1 y0 y1) (sensedRect x0 x1 y0 y1) (latAbove c) =
      if S (.cmp .gt (.var (.tmp 3)) (.lit (.num c))) [(.tmp 3, iv)] = .sat then
        .ok (true, decide (S (.not (.cmp .gt (.var (.tmp 3)) (.lit (.num c)))) [(.tmp 3, iv)] = .unsat))
      else .ok (false, false) := by
  subst hiv
  have k1 : (Key.attr "ego" "x" = Key.attr "ego" "y") = False := by simp
  simp [evalGuard, sensedRect, latAbove, unrollF, unrollT, addElems, keysF, keysT, addElem, discList, discF, discT, discOnly, keysTs, known,
    bind, Except.bind, Except.map, pure, Except.pure, check, hybList, hybF, hybT, laneName, corners, Dict.get?, Dict.set, contList, genList,
    genLoop, genF, zAnd, ZFml.keys, ZFml.wf, arith, bounds, List.foldlM]

/-- The hypotheses of `C23_guard_pipeline_partial` hold for a rectangle on the first segment. -/
example : ∃ hit contained, evalGuard bendWorld.fn (straightRoad bend) (idealSolver bendWorld) (sensedRect 1 3 0 1) (sensedRect 1 3 0 1)
      (latAbove (1/2)) = .ok (hit, contained) ∧
    LenSensed bendWorld (sensedRect 1 3 0 1).len ∧
    DiscSensed (stateAt 2 1) (sensedRect 1 3 0 1) ∧ InSensed (stateAt 2 1) (sensedRect 1 3 0 1) ∧
    (∀ k ∈ keysF (latAbove (1/2)), Plain k) ∧
    asksF bendWorld (stateAt 2 1) (QueryFits (straightRoad bend) (sensedRect 1 3 0 1).cont (stateAt 2 1)) (latAbove (1/2)) := by
  have hin : InSensed (stateAt 2 1) (sensedRect 1 3 0 1) := by
    constructor
    · intro k iv h
      simp only [sensedRect, Dict.get?_cons] at h
      split at h
      · rename_i e; cases h; exact ⟨2, by subst e; rfl, by norm_num, by norm_num⟩
      · split at h
        · rename_i e; cases h; exact ⟨1, by subst e; rfl, by norm_num, by norm_num⟩
        · simp at h
    · intro l a ivs i iv h; simp [sensedRect] at h
  have hev := bend_eval (idealSolver bendWorld) 1 3 0 1 (1/2) _ rfl
  obtain ⟨r, hr⟩ : ∃ r, evalGuard bendWorld.fn (straightRoad bend) (idealSolver bendWorld) (sensedRect 1 3 0 1) (sensedRect 1 3 0 1)
      (latAbove (1/2)) = .ok r := by
    rw [hev]; split <;> exact ⟨_, rfl⟩
  refine ⟨r.1, r.2, hr, ?_, ?_, hin, ?_, ?_⟩
  · intro l n h
    simp only [sensedRect, Dict.get?_cons] at h
    split at h
    · cases h; rfl
    · simp at h
  · constructor
    · intro k v h
      simp only [sensedRect, Dict.get?_cons] at h
      split at h
      · rename_i e; cases h; subst e; rfl
      · simp at h
    · intro l a vs i v h; simp [sensedRect] at h
  · intro k hk
    simp only [latAbove, keysF, keysT, List.mem_append, List.mem_cons, List.not_mem_nil, or_false] at hk
    rcases hk with rfl | rfl | rfl <;> simp [Plain]
  · refine ⟨⟨trivial, ?_⟩, trivial⟩
    refine C23_straight_map_query_partial bend _ _ _ _ _ _ hin.box (by decide +kernel) (fun lo hi h => ?_)
    have e : corners (sensedRect 1 3 0 1).cont [.attr "ego" "x", .attr "ego" "y"] = .ok ([1, 0], [3, 1]) := by decide +kernel
    rw [e] at h
    simp only [Except.ok.injEq, Prod.mk.injEq] at h
    obtain ⟨rfl, rfl⟩ := h
    refine ⟨⟨(0, 0), (1, 0), 10, 0⟩, by decide +kernel, .inl (by decide +kernel)⟩

/-- **C23**, violated on maps with several segments per lane: a rectangle from the first to the third segment of a lane; the verifier
looks at the segments at its lower and upper corner only (guard.py:461-473), and misses a guard that holds at a point beside the second
segment, even with the ideal solver. -/
theorem C23_middle_segment_violated (S : Solver ℚ) (hS : Correct bendWorld S) :
    InSensed (stateAt (21/2) (-2)) (sensedRect 5 20 (-2) (-2)) ∧ DiscSensed (stateAt (21/2) (-2)) (sensedRect 5 20 (-2) (-2)) ∧
    evF bendWorld (stateAt (21/2) (-2)) (latAbove (-39/20)) ∧
    evalGuard bendWorld.fn (straightRoad bend) S (sensedRect 5 20 (-2) (-2)) (sensedRect 5 20 (-2) (-2)) (latAbove (-39/20)) =
      .ok (false, false) := by
  refine ⟨⟨?_, ?_⟩, ⟨?_, ?_⟩, ?_, ?_⟩
  · intro k iv h
    simp only [sensedRect, Dict.get?_cons] at h
    split at h
    · rename_i e; cases h; exact ⟨21/2, by subst e; rfl, by norm_num, by norm_num⟩
    · split at h
      · rename_i e; cases h; exact ⟨-2, by subst e; rfl, by norm_num, by norm_num⟩
      · simp at h
  · intro l a ivs i iv h; simp [sensedRect] at h
  · intro k v h
    simp only [sensedRect, Dict.get?_cons] at h
    split at h
    · rename_i e; cases h; subst e; rfl
    · simp at h
  · intro l a vs i v h; simp [sensedRect] at h
  · have e : evT bendWorld (stateAt (21/2) (-2))
        (.lane .lateral (.var (.attr "ego" "track_mode")) [.attr "ego" "x", .attr "ego" "y"]) = .num (-19/10) := by
      simp only [evT]
      have e1 : (straightRoad bend).dist .lateral "T0" [21/2, -2] = -19/10 := by decide +kernel
      exact congrArg Val.num e1
    simp only [latAbove, evF, e]
    simp only [evT, holds]
    norm_num
  · have hiv : laneInterval (straightRoad bend) .lateral "T0" [5, -2] [20, -2] = (-5, -2) := by decide +kernel
    rw [bend_eval S 5 20 (-2) (-2) (-39/20) _ hiv, if_neg]
    intro hsat
    obtain ⟨ρ, hb, hz⟩ := (hS _ _ (by decide +kernel)).1 hsat
    obtain ⟨r, hr, h1, h2⟩ := hb (.tmp 3, (-5, -2)) (by simp)
    simp only at hr h2
    simp only [evZ, evT, hr, holds] at hz
    linarith

end Verif.Props
