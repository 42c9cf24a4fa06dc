import Verif.Proofs.Incremental2
import Verif.Props.Rect
import Verif.Spec.Rect
import Mathlib.Algebra.Order.Ring.Rat

/-!
Properties of the caches of incremental analysis: the tube cache (C32), the simulation cache (C33), and what is reused after the
decision logic changed (C34).
-/

set_option autoImplicit false
set_option linter.unusedSectionVars false

namespace Verif.Props

open Verif.Inc Verif.Proofs.Inc
open Verif.Rect (Box combineRect)
open Verif.Rect.Spec (Inside Proper)

/-! ### C32 -/

section
variable {K : Type} [Field K] [LinearOrder K]

/-- What the history of insertions leaves in the tube cache. -/
theorem tubeHistory_inCache {E : Type} {eps : K} {adds : List (String × List String × Box K × E)} {c : Cache K E}
    (h : tubeHistory eps [] adds = .ok c) (key : Key) (ivs : List (K × K)) (x : E) (hx : InCache c key ivs x) :
    ∃ a ∈ adds, key = (a.1, a.2.1) ∧ ivs = (columns a.2.2.1).map (stored eps) ∧ x = a.2.2.2 := by
  refine foldlM_inv (P := fun c => ∀ key ivs x, InCache c key ivs x →
    ∃ a ∈ adds, key = (a.1, a.2.1) ∧ ivs = (columns a.2.2.1).map (stored eps) ∧ x = a.2.2.2) h
    (fun _ _ _ hx => absurd hx inCache_nil) ?_ key ivs x hx
  intro c a c' ha hc hstep key ivs x hx
  rcases (addEntry_inCache hstep _ _ _).1 hx with hx | ⟨h1, h2, h3⟩
  · exact hc _ _ _ hx
  · exact ⟨a, ha, h1, h2, h3⟩

theorem forall₂_columns {eps : K} : ∀ {lo hi lo' hi' : List K}, lo.length = hi.length → lo'.length = hi'.length →
    List.Forall₂ (fun (iv c : K × K) => iv.1 ≤ c.1 ∧ c.2 ≤ iv.2) ((columns (lo', hi')).map (stored eps)) (columns (lo, hi)) →
    List.Forall₂ (fun (a b : K) => a ≤ b) lo' lo ∧ List.Forall₂ (fun (b a : K) => b ≤ a + eps) hi hi'
  | [], [], [], [], _, _, _ => ⟨.nil, .nil⟩
  | a :: lo, b :: hi, a' :: lo', b' :: hi', h, h', hf => by
    cases hf with
    | cons h1 h2 =>
      obtain ⟨i1, i2⟩ := forall₂_columns (by simpa using h) (by simpa using h') h2
      exact ⟨.cons h1.1 i1, .cons h1.2 i2⟩
  | [], [], a' :: lo', b' :: hi', _, _, hf => by cases hf
  | a :: lo, b :: hi, [], [], _, _, hf => by cases hf

/-- **C32**, partial. A tube returned by the tube cache, after any history of insertions, was inserted for the same agent and the same mode,
and for an initial rectangle that contains the requested one, up to the tolerance `eps` at the upper corner.
Missing: the tolerance (see `C32_tolerance_violated`), and that the tube is long enough (see `C32_horizon_violated`). -/
theorem C32_hit_partial {E : Type} (eps : K) (ord : Order K E) (hord : ∀ l, (ord l).Perm l)
    (adds : List (String × List String × Box K × E)) (c : Cache K E) (hist : tubeHistory eps [] adds = .ok c)
    (shape : ∀ a ∈ adds, a.2.2.1.1.length = a.2.2.1.2.length)
    (agent : String) (mode : List String) (lo hi : List K) (hlen : lo.length = hi.length) (tube : E)
    (hit : tubeHit eps ord c agent mode (lo, hi) = .ok (some tube)) :
    ∃ lo' hi', (agent, mode, (lo', hi'), tube) ∈ adds ∧
      List.Forall₂ (fun (a b : K) => a ≤ b) lo' lo ∧ List.Forall₂ (fun (b a : K) => b ≤ a + eps) hi hi' := by
  unfold tubeHit at hit
  cases hg : Dict.get? c (agent, mode) with
  | none => rw [hg] at hit; cases hit
  | some t =>
    rw [hg] at hit
    obtain ⟨ivs, h1, h2⟩ := tubeLoop_entry hord hit
    obtain ⟨⟨ag, md, ⟨lo', hi'⟩, tb⟩, ha, hk, hivs, htb⟩ := tubeHistory_inCache hist (agent, mode) ivs tube ⟨t, hg, h1⟩
    dsimp only at hk hivs htb
    subst hivs htb
    injection hk with hk1 hk2; subst hk1 hk2
    exact ⟨lo', hi', ha, forall₂_columns hlen (shape _ ha) h2⟩

/-- The same for the cache of transitions of the verifier, `ReachTubeCache`: all the entries from which the answer is chosen. -/
theorem C32_reach_entries_partial {E : Type} (eps : K) (ord : Order K E) (hord : ∀ l, (ord l).Perm l)
    (adds : List (String × List String × Box K × E)) (c : Cache K E) (hist : tubeHistory eps [] adds = .ok c)
    (shape : ∀ a ∈ adds, a.2.2.1.1.length = a.2.2.1.2.length)
    (agent : String) (mode : List String) (lo hi : List K) (hlen : lo.length = hi.length) (r : List E)
    (hit : reachEntries eps ord c agent mode (lo, hi) = .ok r) (e : E) (he : e ∈ r) :
    ∃ lo' hi', (agent, mode, (lo', hi'), e) ∈ adds ∧
      List.Forall₂ (fun (a b : K) => a ≤ b) lo' lo ∧ List.Forall₂ (fun (b a : K) => b ≤ a + eps) hi hi' := by
  unfold reachEntries at hit
  cases hg : Dict.get? c (agent, mode) with
  | none => rw [hg] at hit; injection hit with hit; subst hit; cases he
  | some t =>
    rw [hg] at hit
    obtain ⟨ivs, h1, h2⟩ := queryAll_entry hord hit e he
    obtain ⟨⟨ag, md, ⟨lo', hi'⟩, tb⟩, ha, hk, hivs, htb⟩ := tubeHistory_inCache hist (agent, mode) ivs e ⟨t, hg, h1⟩
    dsimp only at hk hivs htb
    subst hivs htb
    injection hk with hk1 hk2; subst hk1 hk2
    refine ⟨lo', hi', ha, forall₂_columns hlen (shape _ ha) ?_⟩
    rw [List.forall₂_map_right_iff] at h2
    refine h2.imp ?_
    rintro iv d ⟨t', ht'⟩
    simp only [fits, Bool.and_eq_true, decide_eq_true_eq] at ht'
    exact ht'.2

end

section
variable {K : Type} [Field K] [LinearOrder K]

/-- `tube` is right for the rectangle `r`: it covers everything that starts in `r`. What "covers" means, including for how long, is left
open. -/
def RightFor (covers : List K → Ver.Tube K → Prop) (r : Box K) (tube : Ver.Tube K) : Prop := ∀ x, Inside x r → covers x tube

/-- **C32**, partial, for the tube that a node gets. If every cached tube is right for its initial rectangle, the bloating of a
rectangle is right for it, and no requested corner is within the tolerance above a cached one, then the tube of a node covers everything that starts
in its initial rectangles; and so does the tube that is recorded for the cache.
Missing: `covers` must mean the same (in particular the same horizon) for all tubes in the cache. -/
theorem C32_node_tube_partial (covers : List K → Ver.Tube K → Prop) (eps : K) (ord : Order K (Ver.Tube K)) (hord : ∀ l, (ord l).Perm l)
    (adds : List (String × List String × Box K × Ver.Tube K)) (c : Cache K (Ver.Tube K)) (hist : tubeHistory eps [] adds = .ok c)
    (shape : ∀ a ∈ adds, a.2.2.1.1.length = a.2.2.1.2.length)
    (agent : String) (mode : List String) (bloat : Box K → ℚ → Ver.Tube K) (inits : List (Box K)) (horizon : ℚ) (d : Nat)
    (proper : ∀ r ∈ inits, Proper d r)
    (cachedRight : ∀ a ∈ adds, a.1 = agent → a.2.1 = mode → RightFor covers a.2.2.1 a.2.2.2)
    (bloatRight : ∀ r, RightFor covers r (bloat r horizon))
    (noTolerance : ∀ a ∈ adds, ∀ r, combineRect inits = .ok r → ∀ h ∈ r.2, ∀ h' ∈ a.2.2.1.2, h ≤ h' + eps → h ≤ h')
    (tube : Ver.Tube K) (upd : List (String × List String × Box K × Ver.Tube K))
    (run : cachedTube eps ord c agent mode bloat inits horizon = .ok (tube, upd)) :
    (∀ r ∈ inits, RightFor covers r tube) ∧ ∀ a ∈ upd, a.1 = agent ∧ a.2.1 = mode ∧ RightFor covers a.2.2.1 a.2.2.2 := by
  obtain ⟨r, hr, run⟩ := (bind_ok_iff _ _ _).1 run
  obtain ⟨hit, hhit, run⟩ := (map_ok_iff _ _ _).1 run
  obtain ⟨hp, hin, -⟩ := C30_combine_rect d inits r proper hr
  cases hit with
  | none =>
    injection run with h1 h2; subst h1 h2
    refine ⟨fun s hs x hx => bloatRight r x (hin s hs x hx), ?_⟩
    intro a ha
    rw [List.mem_singleton] at ha; subst ha
    exact ⟨rfl, rfl, bloatRight r⟩
  | some t =>
    injection run with h1 h2; subst h1 h2
    refine ⟨?_, fun a ha => by cases ha⟩
    obtain ⟨lo', hi', ha, hl, hh⟩ := C32_hit_partial eps ord hord adds c hist shape agent mode r.1 r.2 hp.2.length_eq t hhit
    have hh' : List.Forall₂ (fun (a b : K) => a ≤ b) r.2 hi' := by
      have hz := noTolerance _ ha r hr
      clear hhit hr
      revert hz hh
      generalize r.2 = hi
      intro hh hz
      dsimp only at hz
      clear ha
      induction hh with
      | nil => exact .nil
      | cons h1 _ ih =>
        refine .cons (hz _ (by simp) _ (by simp) h1) (ih ?_)
        intro h hm h' hm'
        exact hz h (List.mem_cons_of_mem _ hm) h' (List.mem_cons_of_mem _ hm')
    intro s hs x hx
    obtain ⟨hx1, hx2⟩ := hin s hs x hx
    refine cachedRight _ ha rfl rfl x ⟨?_, ?_⟩
    · exact Verif.Proofs.Rect.Le.trans hl hx1
    · exact Verif.Proofs.Rect.Le.trans hx2 hh'

end

namespace IncEx

/-- A computation that succeeds with a result that passes a test. -/
theorem ok_of {α : Type} (x : Except String α) (p : α → Prop) [DecidablePred p]
    (h : (match x with | .ok a => decide (p a) | .error _ => false) = true) : ∃ a, x = .ok a ∧ p a := by
  cases x with
  | error e => cases h
  | ok a => exact ⟨a, rfl, of_decide_eq_true h⟩

/-- The tolerance of incremental.py:10 (dryvr.py: `_EPSILON`). -/
def eps : ℚ := 1 / 1000000

/-- A cache with two tubes (named 1 and 2) for a car driving straight and one for a car that turns. -/
def adds : List (String × List String × Box ℚ × Nat) :=
  [("car", ["Straight"], ([0, 0], [4, 4]), 1), ("car", ["Turn"], ([0, 0], [9, 9]), 2), ("car", ["Straight"], ([0, 1], [3, 3]), 3)]

/-- Bloating of a rectangle that stands still: a rectangle per unit of time. -/
def still (r : Box ℚ) (horizon : ℚ) : Ver.Tube ℚ := (List.range horizon.floor.toNat).map (fun i => ⟨i, i + 1, r⟩)

end IncEx

open IncEx in
/-- `C32_hit_partial` is not vacuous: the request `[1, 2] × [2, 3]` is answered with the tube for the tightest rectangle. -/
example : ∃ c, tubeHistory eps [] adds = .ok c ∧ (∀ a ∈ adds, a.2.2.1.1.length = a.2.2.1.2.length) ∧
    tubeHit eps id c "car" ["Straight"] ([1, 2], [2, 3]) = .ok (some 3) ∧ tubeHit eps id c "car" ["Straight"] ([1, 2], [2, 5]) = .ok none ∧
    tubeHit eps id c "car" ["Turn"] ([1, 2], [2, 5]) = .ok (some 2) ∧ tubeHit eps id c "bus" ["Turn"] ([1, 2], [2, 5]) = .ok none ∧
    reachEntries eps id c "car" ["Straight"] ([1, 2], [2, 3]) = .ok [1, 3] := by
  exact ok_of _ _ (by decide +kernel)

open IncEx in
/-- **C32 is violated** by the tolerance: the tube computed for `[0, 1]` is returned for `[0, 1 + eps / 2]`, which is not contained. -/
theorem C32_tolerance_violated : ∃ c, tubeHistory eps [] [("car", ["Straight"], (([0], [1]) : Box ℚ), 1)] = .ok c ∧
    tubeHit eps id c "car" ["Straight"] ([0], [1 + eps / 2]) = .ok (some 1) ∧
    Inside [1 + eps / 2] (([0], [1 + eps / 2]) : Box ℚ) ∧ ¬ Inside [1 + eps / 2] (([0], [1]) : Box ℚ) := by
  obtain ⟨c, h1, h2⟩ := ok_of (tubeHistory eps [] [("car", ["Straight"], (([0], [1]) : Box ℚ), 1)])
    (fun c => tubeHit eps id c "car" ["Straight"] ([0], [1 + eps / 2]) = .ok (some 1)) (by decide +kernel)
  refine ⟨c, h1, h2, ?_, ?_⟩
  · constructor <;> refine .cons (by unfold eps; norm_num) .nil
  · rintro ⟨-, h⟩
    cases h with
    | cons h _ => exact absurd h (by unfold eps; norm_num)

set_option synthInstance.maxSize 1000 in
open IncEx in
/-- **C32 is violated** for the horizon: a first node needs a tube for one unit of time; it is stored. A later node (another run with a longer
horizon, or a node that starts earlier) with the same mode and initial set needs three units, but gets the short tube. -/
theorem C32_horizon_violated : ∃ c t1 upd, cachedTube eps id [] "car" ["Straight"] still [([0], [1])] 1 = .ok (t1, upd) ∧
    tubeHistory eps [] upd = .ok c ∧ cachedTube eps id c "car" ["Straight"] still [([0], [1])] 3 = .ok (t1, []) ∧
    t1.length = 1 ∧ (still ([0], [1]) 3).length = 3 := by
  obtain ⟨c, h1, h2⟩ := ok_of (tubeHistory eps [] [("car", ["Straight"], (([0], [1]) : Box ℚ), still ([0], [1]) 1)])
    (fun c => cachedTube eps id c "car" ["Straight"] still [([0], [1])] 3 = .ok (still ([0], [1]) 1, [])) (by decide +kernel)
  exact ⟨c, still ([0], [1]) 1, [("car", ["Straight"], ([0], [1]), still ([0], [1]) 1)], by decide +kernel, h1, h2, by decide +kernel,
    by decide +kernel⟩

/-! ### C33 -/

section
variable {K T C A : Type} [Field K] [LinearOrder K] [IsStrictOrderedRing K] [DecidableEq C]

/-- The transition was recorded by this update: its agent made a transition at the node, with these modes, values and paths, at this step, and the agents
had these initial values. -/
structure RecordedBy (u : Update K T C A) (t : CTrans K C A) : Prop where
  moved : u.moved = true
  mem   : (t.disc, t.cont, t.paths) ∈ u.trans
  idx   : t.idx = u.idx
  inits : t.inits = u.inits

omit [Field K] [LinearOrder K] [IsStrictOrderedRing K] [DecidableEq C] in
theorem recordedBy_of_cached {u : Update K T C A} {t : CTrans K C A} (h : t ∈ u.cached) : RecordedBy u t := by
  unfold Update.cached at h
  split at h
  · rename_i hm
    obtain ⟨x, hx, rfl⟩ := List.mem_map.1 h
    exact ⟨hm, hx, rfl, rfl⟩
  · cases h

/-- **C33**. An entry found in the simulation cache, after any history of updates, has the trace of an update for the same agent, the same mode and
initial values that differ from the requested ones by at most the tolerance in every variable; and all transitions recorded in it come from updates for the same
agent and mode. -/
theorem C33_hit (eps : K) (ord : Order K Nat) (hord : ∀ l, (ord l).Perm l) (us : List (Update K T C A)) (c : SimCache K T C A)
    (hist : simHistory eps ord ⟨[], []⟩ us = .ok c) (agent : String) (mode : List String) (init : List K) (inits : Dict String (List K))
    (i : Nat) (hit : simHit eps ord c agent mode init inits = .ok (some i)) :
    ∃ s, c.segs[i]? = some s ∧
      (∃ u ∈ us, u.agent = agent ∧ u.mode = mode ∧ u.trace = s.trace ∧ List.Forall₂ (fun (v x : K) => |x - v| ≤ eps) u.init init) ∧
      ∀ t ∈ s.trans, ∃ u ∈ us, u.agent = agent ∧ u.mode = mode ∧ RecordedBy u t := by
  obtain ⟨own, hown, hin⟩ := simHistory_owners hord hist
  obtain ⟨ivs, h1, h2, hlt⟩ := simHit_entry hord hit
  obtain ⟨u, hu, hkey, rfl⟩ := hin _ _ _ h1
  injection hkey with hk1 hk2
  have hs : c.segs[i]? = some (c.segs[i]'hlt) := List.getElem?_eq_getElem hlt
  have hou : Owned us u (c.segs[i]'hlt) := by
    obtain ⟨hlt', hu'⟩ := List.getElem?_eq_some_iff.1 hu
    subst hu'
    exact List.Forall₂.get hown hlt' hlt
  refine ⟨_, hs, ⟨u, hou.mem, hk1.symm, hk2.symm, hou.trace.symm, ?_⟩, ?_⟩
  · rw [List.forall₂_map_left_iff] at h2
    refine h2.imp ?_
    rintro v x ⟨ha, hb⟩
    exact abs_le.2 ⟨by linarith, by linarith⟩
  · intro t ht
    obtain ⟨v, hv, hv1, hv2, hv3⟩ := hou.trans t ht
    exact ⟨v, hv, hv1.trans hk1.symm, hv2.trans hk2.symm, recordedBy_of_cached hv3⟩

/-- **C33** for the transitions that are reused: a transition that is taken from the cache was recorded, for the same agent in the same mode, at
a node whose initial values differ by less than the tolerance in every variable of every agent. -/
theorem C33_reused (eps : K) (ord : Order K Nat) (hord : ∀ l, (ord l).Perm l) (us : List (Update K T C A)) (c : SimCache K T C A)
    (hist : simHistory eps ord ⟨[], []⟩ us = .ok c) (modes : Dict String (List String)) (inits : Dict String (List K))
    (cache : Dict String (CSeg K T C A))
    (found : ∀ id s, (id, s) ∈ cache → ∃ mode init i, Dict.get? modes id = some mode ∧ Dict.get? inits id = some init ∧
      simHit eps ord c id mode init inits = .ok (some i) ∧ c.segs[i]? = some s)
    (l : List (String × CTrans K C A)) (hl : reusedTrans eps cache inits = .ok l) (id : String) (t : CTrans K C A) (ht : (id, t) ∈ l) :
    ∃ u ∈ us, u.agent = id ∧ Dict.get? modes id = some u.mode ∧ RecordedBy u t ∧
      (∀ k, k ∈ u.inits.map Prod.fst ↔ k ∈ inits.map Prod.fst) ∧
      ∀ k xs ys, (k, xs) ∈ u.inits → Dict.get? inits k = some ys → xs.length = ys.length →
        List.Forall₂ (fun (x y : K) => |x - y| < eps) xs ys := by
  obtain ⟨bs, hbs, rfl⟩ := (map_ok_iff _ _ _).1 hl
  have hbs := (mapM_ok_iff _ _ _).1 hbs
  obtain ⟨⟨x, b⟩, hx, hxe⟩ := List.mem_map.1 ht
  dsimp only at hxe; subst hxe
  obtain ⟨hx1, hb⟩ := List.mem_filter.1 hx
  dsimp only at hb; subst hb
  obtain ⟨y, hy, hyb⟩ := forall₂_mem_right hbs hx1
  obtain ⟨b', hb', he⟩ := (map_ok_iff _ _ _).1 hyb
  injection he with he1 he2; subst he1 he2
  obtain ⟨⟨id', s⟩, hs, hts⟩ := List.mem_flatMap.1 hy
  obtain ⟨t', ht', he⟩ := List.mem_map.1 hts
  injection he with he1 he2
  dsimp only at he1; subst he1 he2
  obtain ⟨mode, init, i, hm, hi, hhit, hsi⟩ := found _ _ hs
  obtain ⟨s', hs', -, htr⟩ := C33_hit eps ord hord us c hist id' mode init inits i hhit
  rw [hsi] at hs'; injection hs' with hs'; subst hs'
  obtain ⟨u, hu, hu1, hu2, hu3⟩ := htr t' ht'
  have hinit : t'.inits = u.inits := hu3.inits
  dsimp only at hb'
  rw [hinit] at hb'
  unfold simTransSuit at hb'
  by_cases hk : sameKeys u.inits inits = true
  · rw [if_pos hk] at hb'
    injection hb' with hb'
    refine ⟨u, hu, hu1, by rw [hu2]; exact hm, hu3, ?_, ?_⟩
    · intro k
      simp only [sameKeys, Bool.and_eq_true, List.all_eq_true, List.contains_iff_mem, Dict.keys] at hk
      exact ⟨hk.1 k, hk.2 k⟩
    · intro k xs ys hxs hys hlen
      have h := List.all_eq_true.1 hb' _ hxs
      dsimp only at h
      rw [hys] at h
      simp only [Option.getD_some] at h
      rw [List.forall₂_iff_zip]
      refine ⟨hlen, ?_⟩
      intro a b hab
      have := List.all_eq_true.1 h _ hab
      simpa using this
  · rw [if_neg hk] at hb'; cases hb'

end

namespace IncEx

/-- Two updates by a node of a first run: the car makes a transition at step 3, the bus does not. -/
def updates : List (Update ℚ (List (ℚ × ℚ)) Nat Nat) :=
  [⟨true, "car", ["Drive"], [0], [("car", [0]), ("bus", [5])], true, [(0, 0), (1, 1)], [(["Brake"], [3], [⟨"m", 1, 1, 2, 2⟩])], 3, (0, 0)⟩,
   ⟨true, "bus", ["Drive"], [5], [("car", [0]), ("bus", [5])], false, [(0, 5), (1, 6)], [], 3, (0, 0)⟩]

end IncEx

open IncEx in
/-- `C33_hit` and `C33_reused` are not vacuous: a node of a later run finds both segments, and the recorded transition of the car. -/
example : ∃ c, simHistory eps id ⟨[], []⟩ updates = .ok c ∧
    (simHit eps id c "car" ["Drive"] [eps / 2] [("car", [eps / 2]), ("bus", [5])] = .ok (some 0) ∧
    simHit eps id c "bus" ["Drive"] [5] [("car", [eps / 2]), ("bus", [5])] = .ok (some 1) ∧
    simHit eps id c "bus" ["Drive"] [4] [("car", [eps / 2]), ("bus", [4])] = .ok none ∧
    (c.segs[0]?.map (fun s => (reusedTrans eps [("car", s)] [("car", [eps / 2]), ("bus", [5])]).map (fun l => l.map (fun p => p.2.disc)))
      = some (.ok [["Brake"]]))) :=
  ok_of _ _ (by decide +kernel)

/-! ### C57: the trace of a node -/

section
variable {X C A : Type} [DecidableEq C]

/-- **C57**, partial. If every trace in the cache was computed by a node with the same start time and the same remaining time, then the trace
that a node takes from the cache is the one that the simulation computes for initial values that differ from its own by at most the tolerance.
Missing: nodes with other start times or horizons (see `C57_start_violated` and `C57_horizon_violated`). -/
theorem C57_reused_trace_partial (eps : ℚ) (ord : Order ℚ Nat) (hord : ∀ l, (ord l).Perm l) (us : List (Update ℚ (List (ℚ × X)) C A))
    (c : SimCache ℚ (List (ℚ × X)) C A) (hist : simHistory eps ord ⟨[], []⟩ us = .ok c)
    (simulate : String → List String → List ℚ → ℚ → List (ℚ × X)) (start horizon : ℚ)
    (computed : ∀ u ∈ us, u.trace = (simulate u.agent u.mode u.init (horizon - start)).map (fun r => (r.1 + start, r.2)))
    (agent : String) (mode : List String) (init : List ℚ) (inits : Dict String (List ℚ)) (i : Nat) (s : CSeg ℚ (List (ℚ × X)) C A)
    (hit : simHit eps ord c agent mode init inits = .ok (some i)) (hs : c.segs[i]? = some s) :
    ∃ init', List.Forall₂ (fun (v x : ℚ) => |x - v| ≤ eps) init' init ∧
      nodeTrace (some s) (simulate agent mode init) start horizon
        = nodeTrace (none : Option (CSeg ℚ (List (ℚ × X)) C A)) (simulate agent mode init') start horizon := by
  obtain ⟨s', hs', ⟨u, hu, hu1, hu2, hu3, hu4⟩, -⟩ := C33_hit eps ord hord us c hist agent mode init inits i hit
  rw [hs] at hs'; injection hs' with hs'; subst hs'
  refine ⟨u.init, hu4, ?_⟩
  subst hu1 hu2
  show s.trace = _
  rw [← hu3, computed u hu]
  rfl

end

namespace IncEx

/-- A car that drives with speed one, simulated with time step one. -/
def drive (x : ℚ) (remain : ℚ) : List (ℚ × ℚ) := (List.range (remain.floor.toNat + 1)).map (fun (k : Nat) => ((k : ℚ), x + k))

/-- The update of a node that starts at time 0 with horizon 2. -/
def first : Update ℚ (List (ℚ × ℚ)) Nat Nat :=
  ⟨true, "car", ["Drive"], [0], [("car", [0])], false, nodeTrace (none : Option (CSeg ℚ (List (ℚ × ℚ)) Nat Nat)) (drive 0) 0 2, [], 2, (0, 0)⟩

end IncEx

open IncEx in
/-- `C57_reused_trace_partial` is not vacuous. -/
example : ∃ c, simHistory eps id ⟨[], []⟩ [first] = .ok c ∧ simHit eps id c "car" ["Drive"] [0] [("car", [0])] = .ok (some 0) :=
  ok_of _ _ (by decide +kernel)

open IncEx in
/-- **C57 is violated** when the start times differ: a node that starts at time 7 in the same mode with the same initial values takes the trace of
the first node from the cache, with times that begin at 0. -/
theorem C57_start_violated : ∃ c, simHistory eps id ⟨[], []⟩ [first] = .ok c ∧
    (simHit eps id c "car" ["Drive"] [0] [("car", [0])] = .ok (some 0) ∧
      c.segs[0]?.map (fun s => nodeTrace (some s) (drive 0) 7 9) = some [(0, 0), (1, 1), (2, 2)] ∧
      nodeTrace (none : Option (CSeg ℚ (List (ℚ × ℚ)) Nat Nat)) (drive 0) 7 9 = [(7, 0), (8, 1), (9, 2)]) :=
  ok_of _ _ (by decide +kernel)

open IncEx in
/-- **C57 is violated** when the horizons differ: in a run with horizon 4, the trace from the cache ends at time 2. -/
theorem C57_horizon_violated : ∃ c, simHistory eps id ⟨[], []⟩ [first] = .ok c ∧
    (simHit eps id c "car" ["Drive"] [0] [("car", [0])] = .ok (some 0) ∧
      c.segs[0]?.map (fun s => nodeTrace (some s) (drive 0) 0 4) = some [(0, 0), (1, 1), (2, 2)] ∧
      nodeTrace (none : Option (CSeg ℚ (List (ℚ × ℚ)) Nat Nat)) (drive 0) 0 4 = [(0, 0), (1, 1), (2, 2), (3, 3), (4, 4)]) :=
  ok_of _ _ (by decide +kernel)

/-! ### C34 and C58: after the decision logic changed -/

section
variable {K T C A : Type} [DecidableEq C] [DecidableEq A]

/-- **C34**, partial. A segment that is kept is one of the cached ones with the same trace, and the transitions in it have the same guards, index, destination
and values as before. Every path of such a transition that comes from the old decision logic has a counterpart in the new one: a path for the same variable with
the same guard, and, if no assignment was changed, with the same assignment.
Missing: changed assignments, see `C34_assignment_violated`. -/
theorem C34_kept_partial (old new : Dict String (ILogic C A)) (cached kept : Dict String (CSeg K T C A)) (added : List (String × IPath C A))
    (run : toSimulate old new cached = .ok (kept, added)) (id : String) (s' : CSeg K T C A) (hs' : (id, s') ∈ kept) :
    ∃ s, (id, s) ∈ cached ∧ s'.trace = s.trace ∧ s'.nodes = s.nodes ∧
      List.Forall₂ (fun (t t' : CTrans K C A) => t'.inits = t.inits ∧ t'.idx = t.idx ∧ t'.disc = t.disc ∧ t'.cont = t.cont ∧
        List.Forall₂ (fun (p p' : IPath C A) => p'.var = p.var ∧ p'.cond = p.cond ∧ p'.condVeri = p.condVeri) t.paths t'.paths) s.trans s'.trans ∧
      ∀ o n, Dict.get? old id = some o → Dict.get? new id = some n → ∀ t ∈ s.trans, ∀ p ∈ t.paths, p ∈ o.paths →
        ∃ q ∈ n.paths, q.var = p.var ∧ q.condVeri = p.condVeri ∧
          ((∀ a ∈ o.paths, ∀ b ∈ n.paths, a.var = b.var → a.condVeri = b.condVeri → a.valVeri = b.valVeri) → q.valVeri = p.valVeri) := by
  obtain ⟨-, -, h⟩ := toSimulate_spec run
  obtain ⟨s, r, hs, hr, hr1⟩ := h id s' hs'
  refine ⟨s, hs, ?_⟩
  unfold reviewSegment at hr
  by_cases he : s.trans.isEmpty = true
  · rw [if_pos he] at hr
    injection hr with hr; subst hr
    injection hr1 with hr1; subst hr1
    rw [List.isEmpty_iff] at he
    rw [he]
    exact ⟨rfl, rfl, .nil, fun _ _ _ _ t ht => by cases ht⟩
  · rw [if_neg he] at hr
    cases ho : Dict.get? old id with
    | none => rw [ho] at hr; cases hr
    | some o =>
      cases hn : Dict.get? new id with
      | none => rw [ho, hn] at hr; cases hr
      | some n =>
        rw [ho, hn] at hr
        dsimp only at hr
        by_cases ha : o.args = n.args
        · rw [if_pos ha] at hr
          obtain ⟨d, hd, rfl⟩ := (map_ok_iff _ _ _).1 hr
          dsimp only at hr1
          by_cases hrem : (s.trans.any (fun t => t.paths.any (fun p => d.removed.any (fun r => p.same r)))) = true
          · rw [if_pos hrem] at hr1; cases hr1
          · rw [if_neg hrem] at hr1
            injection hr1 with hr1; subst hr1
            refine ⟨rfl, rfl, ?_, ?_⟩
            · dsimp only
              rw [List.forall₂_map_right_iff]
              refine List.forall₂_same.2 (fun t _ => ⟨rfl, rfl, rfl, rfl, ?_⟩)
              dsimp only
              rw [List.forall₂_map_right_iff]
              exact List.forall₂_same.2 (fun p _ => newVal_spec _ p)
            · intro o' n' ho' hn' t ht p hp hpo
              injection ho' with ho'; injection hn' with hn'; subst ho' hn'
              rcases (diffLogic_spec hd).1 p hpo with hr | ⟨q, hq, hq1, hq2⟩
              · refine absurd ?_ hrem
                exact List.any_eq_true.2 ⟨t, ht, List.any_eq_true.2 ⟨p, hp, List.any_eq_true.2 ⟨p, hr, by simp [IPath.same]⟩⟩⟩
              · exact ⟨q, hq, hq1, hq2, fun h => (h p hpo q hq hq1.symm hq2.symm).symm⟩
        · rw [if_neg ha] at hr; cases hr

/-- **C58**, partial. After the decision logic of an agent changed whose segment has recorded transitions, every path of the new logic is simulated
again, or the old logic has a path for the same variable with the same guard.
Missing: agents whose segments have no recorded transition, see `C58_no_transition_violated`. -/
theorem C58_new_paths_partial (old new : Dict String (ILogic C A)) (cached kept : Dict String (CSeg K T C A)) (added : List (String × IPath C A))
    (run : toSimulate old new cached = .ok (kept, added)) (id : String) (s : CSeg K T C A) (hs : (id, s) ∈ cached) (ht : s.trans ≠ [])
    (o n : ILogic C A) (ho : Dict.get? old id = some o) (hn : Dict.get? new id = some n) (q : IPath C A) (hq : q ∈ n.paths) :
    (id, q) ∈ added ∨ ∃ p ∈ o.paths, p.var = q.var ∧ p.condVeri = q.condVeri := by
  obtain ⟨-, h, -⟩ := toSimulate_spec run
  obtain ⟨r, hr, hadd⟩ := h id s hs
  unfold reviewSegment at hr
  have he : ¬ s.trans.isEmpty = true := by simpa using ht
  rw [if_neg he, ho, hn] at hr
  dsimp only at hr
  by_cases ha : o.args = n.args
  · rw [if_pos ha] at hr
    obtain ⟨d, hd, rfl⟩ := (map_ok_iff _ _ _).1 hr
    rcases (diffLogic_spec hd).2 q hq with h | h
    · exact .inl (hadd _ (List.mem_map.2 ⟨q, h, rfl⟩))
    · exact .inr h
  · rw [if_neg ha] at hr; cases hr

/-- **C58** for a decision logic that did not change: everything is kept as it is and nothing is simulated again. -/
theorem C58_unchanged_partial (agents : Dict String (ILogic C A)) (cached : Dict String (CSeg K T C A))
    (known : ∀ a ∈ cached, ∃ o, Dict.get? agents a.1 = some o) : toSimulate agents agents cached = .ok (cached, []) := by
  have hself : ∀ l : List (IPath C A), diffPaths l l = .ok ⟨[], [], []⟩ := by
    intro l
    induction l with
    | nil => rfl
    | cons p l ih => unfold diffPaths; rw [ih]; simp [Except.map]
  have hsame : ∀ {V : Type} (d : Dict String V), sameKeys d d = true := by
    intro V d
    simp [sameKeys]
  have hdiff : ∀ o : ILogic C A, diffLogic o o = .ok ⟨[], [], []⟩ := by
    intro o
    unfold diffLogic
    dsimp only
    rw [if_pos (hsame _)]
    have hm : (groupByVar o.paths).mapM (fun vp => diffPaths vp.2 ((Dict.get? (groupByVar o.paths) vp.1).getD []))
        = .ok ((groupByVar o.paths).map (fun _ => (⟨[], [], []⟩ : PDiff C A))) := by
      rw [mapM_ok_iff, List.forall₂_map_right_iff]
      refine List.forall₂_same.2 ?_
      rintro ⟨v, l⟩ hvl
      dsimp only
      rw [Dict.get?_of_mem (groupByVar_spec o.paths).1 hvl]
      exact hself l
    rw [hm]
    have hz : ∀ (f : PDiff C A → List (IPath C A)), f ⟨[], [], []⟩ = [] →
        ((groupByVar o.paths).map (fun _ => (⟨[], [], []⟩ : PDiff C A))).flatMap f = [] := by
      intro f hf
      rw [List.flatMap_map, List.flatMap_eq_nil_iff]
      exact fun _ _ => hf
    simp only [Except.map]
    rw [hz _ rfl, hz _ rfl, hz _ rfl]
  have hrev : ∀ a ∈ cached, reviewSegment agents agents a.1 a.2 = .ok (some a.2, []) := by
    intro a ha
    obtain ⟨o, ho⟩ := known a ha
    unfold reviewSegment
    by_cases he : a.2.trans.isEmpty = true
    · rw [if_pos he]
    · rw [if_neg he, ho]
      dsimp only
      rw [if_pos rfl, hdiff]
      simp only [Except.map, List.any_nil, List.any_eq_true, List.map_nil]
      rw [if_neg (by simp)]
      have hnv : newVal ([] : List (IPath C A)) = id := rfl
      simp [hnv]
  unfold toSimulate
  rw [if_pos (hsame _)]
  have hm : cached.mapM (fun a => (reviewSegment agents agents a.1 a.2).map (fun r => (a.1, r)))
      = .ok (cached.map (fun a => (a.1, some a.2, []))) := by
    rw [mapM_ok_iff, List.forall₂_map_right_iff]
    refine List.forall₂_same.2 ?_
    intro a ha
    rw [hrev a ha]; rfl
  rw [hm]
  simp only [Except.map, List.filterMap_map, List.flatMap_map]
  congr 2
  · induction cached with
    | nil => rfl
    | cons a l ih =>
      simp only [List.filterMap_cons, Function.comp_apply, Option.map_some]
      congr 1
      refine ih (fun b hb => known b (List.mem_cons_of_mem _ hb)) (fun b hb => hrev b (List.mem_cons_of_mem _ hb)) ?_
      rw [mapM_ok_iff, List.forall₂_map_right_iff]
      refine List.forall₂_same.2 ?_
      intro b hb
      rw [hrev b (List.mem_cons_of_mem _ hb)]; rfl
  · simp

end

namespace IncEx

/-- `if near: mode = Brake` and `if far: mode = Drive`; numbers stand for code and expressions. -/
def near : IPath Nat Nat := ⟨"mode", 1, 1, 10, 10⟩
def far  : IPath Nat Nat := ⟨"mode", 2, 2, 20, 20⟩
/-- `if near: mode = Turn`. -/
def near' : IPath Nat Nat := ⟨"mode", 1, 1, 30, 30⟩
/-- `if very_near: mode = Brake`. -/
def vnear : IPath Nat Nat := ⟨"mode", 3, 3, 10, 10⟩

/-- A segment with a transition to `Brake`. -/
def seg (p : IPath Nat Nat) (dest : String) : CSeg ℚ Unit Nat Nat := ⟨(), [⟨[("car", [0])], 3, [dest], [0], [p]⟩], [(0, 0)]⟩

def logic (ps : List (IPath Nat Nat)) : Dict String (ILogic Nat Nat) := [("car", ⟨["ego"], ps⟩)]

end IncEx

set_option synthInstance.maxSize 2000 in
open IncEx in
/-- `C34_kept_partial` and `C58_new_paths_partial` are not vacuous: when another branch changes, the segment is kept and the new branch is simulated; when the branch
that was taken changes, the segment is dropped. -/
example : toSimulate (logic [near, far]) (logic [near, vnear]) [("car", seg near "Brake")] = .ok ([("car", seg near "Brake")], [("car", vnear)]) ∧
    toSimulate (logic [near, far]) (logic [vnear, far]) [("car", seg near "Brake")] = .ok ([], [("car", vnear)]) := by
  decide +kernel

open IncEx in
/-- **C34 is violated** when an assignment changed: the taken branch now sets the mode to `Turn`. The segment is kept, with nothing to simulate, and the
recorded transition still leads to `Brake`. -/
theorem C34_assignment_violated : ∃ s', toSimulate (logic [near]) (logic [near']) [("car", seg near "Brake")] = .ok ([("car", s')], []) ∧
    s'.trans.map (fun t => (t.disc, t.paths)) = [(["Brake"], [{ near with val := near'.val }])] ∧
    near ∉ [near'] := by
  exact ⟨_, rfl, by decide +kernel, by decide +kernel⟩

set_option synthInstance.maxSize 2000 in
open IncEx in
/-- **C58 is violated** for a segment without transitions: the guard changed from `far` to `near`, but the segment is kept and nothing is
simulated, so that the new guard is never evaluated. -/
theorem C58_no_transition_violated :
    toSimulate (logic [far]) (logic [near]) [("car", (⟨(), [], [(0, 0)]⟩ : CSeg ℚ Unit Nat Nat))] = .ok ([("car", ⟨(), [], [(0, 0)]⟩)], []) ∧
    pathsToCheck (logic [near]) [("car", (⟨(), [], [(0, 0)]⟩ : CSeg ℚ Unit Nat Nat))] [] = [] ∧
    pathsToCheck (logic [near]) ([] : Dict String (CSeg ℚ Unit Nat Nat)) [] = [("car", near)] := by
  decide +kernel

set_option synthInstance.maxSize 2000 in
open IncEx in
/-- **C58 is violated** by an additional branch: the analysis ends with an exception. -/
theorem C58_additional_branch_violated :
    toSimulate (logic [near]) (logic [near, far]) [("car", seg near "Brake")] = .error "AttributeError" := by
  decide +kernel

end Verif.Props
