import Verif.Proofs.StarGuard3
import Verif.Props.Star
import Mathlib.Tactic.NormNum
import Mathlib.Tactic.Linarith

/-! C70 and C71: guards and star sets. -/

set_option autoImplicit false
set_option linter.unusedSectionVars false

namespace Verif.Props

open Verif Verif.Grd Verif.Grd.Spec Verif.Stars Verif.StarGrd Verif.StarGrd.Spec Verif.Proofs Verif.Proofs.StarGrd Finset

section
variable {K : Type} [Field K] [LinearOrder K] [IsStrictOrderedRing K]

/-- The result of a query that can be built. -/
theorem contStars_run (S : StarSolver K) (cont : Dict Text (Entry K)) (fs : List (Fml K)) (z : ZFml K) (cs : List (Con K))
    (h1 : genList fs = .ok (.inr z)) (h2 : ∀ k ∈ z.keys, (Dict.get? cont (keyText k)).isSome = true) (h3 : z.wf = true) (h4 : allCons cont z = .ok cs) :
    contStars S cont fs = .ok (answers S z cs) := by
  unfold contStars
  rw [h1]
  have : z.keys.all (fun k => (Dict.get? cont (keyText k)).isSome) = true := List.all_eq_true.2 h2
  simp [Except.bind, this, h3, h4, Except.map]

theorem contStars_cases (S : StarSolver K) (cont : Dict Text (Entry K)) (fs : List (Fml K)) (r : Bool × Bool) (h : contStars S cont fs = .ok r) :
    (∃ b, genList fs = .ok (.inl b) ∧ r = (b, b)) ∨
    ∃ z cs, genList fs = .ok (.inr z) ∧ (∀ k ∈ z.keys, (Dict.get? cont (keyText k)).isSome = true) ∧ z.wf = true ∧ allCons cont z = .ok cs ∧
      r = answers S z cs := by
  unfold contStars at h
  obtain ⟨g, hg, h⟩ := (bind_ok_iff ..).1 h
  rcases g with b | z
  · cases h
    exact .inl ⟨b, hg, rfl⟩
  · right
    dsimp only at h
    split at h
    · cases h
    · next h1 =>
      split at h
      · cases h
      · next h2 =>
        obtain ⟨cs, hcs, rfl⟩ := (map_ok_iff _ _ _).1 h
        simp only [Bool.not_eq_true', Bool.not_eq_false] at h1 h2
        exact ⟨z, cs, hg, List.all_eq_true.1 h1, h2, hcs, rfl⟩

/-- **C70**, in part. With star sets, a guard is hit exactly if it is true in some state where every agent is in its star set; and it is contained
exactly if it is true in all these states.

Missing: names that can be mistaken for each other, for which the claim is false (`C70_names_violated`, `C70_alpha_violated`); lane queries (see C71). -/
theorem C70_guard_partial (W : World K) (S : StarSolver K) (hS : SolverCorrect W S) (hC : SolverComplete S) (w : Agents K)
    (hu : Unmistakable w) (hp : Proper w) (before : Nat) (ks : List Key)
    (hks : ∀ k ∈ ks, (∃ v ∈ w.vars, k = .attr "ego" v) ∨ (∃ i < w.stars.length, ∃ v ∈ w.ovars, k = .elem w.list i v))
    (cont : Dict Text (Entry K)) (hcont : ks.foldlM addElemStar (sensed w before) = .ok cont)
    (fs : List (Fml K)) (hfs : ∀ f ∈ fs, Mentions w f) (hit contained : Bool) (h : contStars S cont fs = .ok (hit, contained)) :
    (hit = true ↔ ∃ ρ : State K, InStars w ρ ∧ ∀ f ∈ fs, evF W ρ f) ∧
    (contained = true ↔ ∀ ρ : State K, InStars w ρ → ∀ f ∈ fs, evF W ρ f) := by
  have hg := good_elems w hu ks hks _ cont (good_sensed w hu before) hcont
  have hne : ∃ ρ : State K, InStars w ρ := by
    obtain ⟨ρ, h, -⟩ := state_of_values w hu hp cont hg (.const true) [] (by simp [ZFml.keys]) (by simp [ZFml.keys])
      (by simp [allCons, symbols, ZFml.keys, agentStates, Except.bind, Except.map, pure, Except.pure]) (fun _ => 0) (by simp)
    exact ⟨ρ, h⟩
  obtain ⟨ρ0, hρ0⟩ := hne
  rcases contStars_cases S cont fs _ h with ⟨b, hgen, hr⟩ | ⟨z, cs, hgen, hin, hw, hcs, hr⟩
  · have hev : ∀ ρ : State K, b = true ↔ ∀ f ∈ fs, evF W ρ f := fun ρ => by
      have := genList_ok W ρ fs _ hgen
      simpa [evRes] using this
    cases hr
    exact ⟨⟨fun hb => ⟨ρ0, hρ0, (hev ρ0).1 hb⟩, fun ⟨ρ, _, h⟩ => (hev ρ).2 h⟩, ⟨fun hb ρ _ => (hev ρ).1 hb, fun h => (hev ρ0).2 (h ρ0 hρ0)⟩⟩
  · have hkeys : ∀ k ∈ z.keys, (∃ v ∈ w.vars, k = .attr "ego" v) ∨ (∃ i < w.stars.length, ∃ v ∈ w.ovars, k = .elem w.list i v) := by
      intro k hk
      obtain ⟨f, hf, hk⟩ := genList_keys fs z hgen k hk
      exact hfs f hf k hk
    have hev : ∀ ρ : State K, evZ W ρ z ↔ ∀ f ∈ fs, evF W ρ f := fun ρ => genList_ok W ρ fs _ hgen
    have hsat : S z (cs ++ cs) = .sat ↔ ∃ ρ : State K, InStars w ρ ∧ ∀ f ∈ fs, evF W ρ f := by
      constructor
      · intro h
        obtain ⟨σ, h1, h2⟩ := (hS z _ hw).1 h
        obtain ⟨ρ, h3, h4⟩ := state_of_values w hu hp cont hg z cs hkeys hin hcs σ (fun c hc => h1 c (List.mem_append_left _ hc))
        exact ⟨ρ, h3, (hev ρ).1 ((evZ_congr W _ _ z hw h4).1 h2)⟩
      · rintro ⟨ρ, h1, h2⟩
        obtain ⟨σ, h3, h4⟩ := values_of_state w hu hp cont hg z cs hkeys hin hcs ρ h1
        rcases hans : S z (cs ++ cs) with _ | _ | _
        · rfl
        · exact absurd ((evZ_congr W _ _ z hw h4).2 ((hev ρ).2 h2))
            ((hS z _ hw).2 hans σ (fun c hc => (List.mem_append.1 hc).elim (h3 c) (h3 c)))
        · exact absurd hans (hC z _ hw)
    have hwn := wf_not z hw
    have huns : S (.not z) cs = .unsat ↔ ∀ ρ : State K, InStars w ρ → ∀ f ∈ fs, evF W ρ f := by
      constructor
      · intro h ρ hρ
        obtain ⟨σ, h3, h4⟩ := values_of_state w hu hp cont hg z cs hkeys hin hcs ρ hρ
        have := (hS _ _ hwn).2 h σ h3
        rw [evZ, not_not] at this
        exact (hev ρ).1 ((evZ_congr W _ _ z hw h4).1 this)
      · intro hall
        rcases hans : S (.not z) cs with _ | _ | _
        · obtain ⟨σ, h1, h2⟩ := (hS _ _ hwn).1 hans
          obtain ⟨ρ, h3, h4⟩ := state_of_values w hu hp cont hg z cs hkeys hin hcs σ h1
          rw [evZ] at h2
          exact absurd ((evZ_congr W _ _ z hw h4).2 ((hev ρ).2 (hall ρ h3))) h2
        · rfl
        · exact absurd hans (hC _ _ hwn)
    unfold answers at hr
    split at hr
    · next hs =>
      cases hr
      exact ⟨⟨fun _ => hsat.1 hs, fun _ => rfl⟩, by rw [decide_eq_true_eq]; exact huns⟩
    · next hs =>
      cases hr
      refine ⟨⟨fun h => by simp at h, fun h => absurd (hsat.2 h) hs⟩, ⟨fun h => by simp at h, fun hall => ?_⟩⟩
      exact absurd (hsat.2 ⟨ρ0, hρ0, hall ρ0 hρ0⟩) hs

/-- **C71**, in part. With star sets, the range that a lane query uses for a variable goes exactly from the least to the greatest value of the
variable in the states where every agent is in its star set.

Missing: other agents with other variables, or in another order, than the agent itself (`C71_order_violated`), and dictionaries in which an earlier
guard has left a variable (`C71_left_violated`); for both the claim is false. -/
theorem C71_range_partial (lp : Bool → Vec K → Mat K → Vec K → LPRes K) (hlp : LPCorrect lp) (w : Agents K) (hu : Unmistakable w) (hp : Proper w)
    (hb : Built w.star ∧ ∀ s ∈ w.stars, Built s) (hpre : w.ovars <+: w.vars) (before : Nat) (ks : List Key)
    (hks : ∀ k ∈ ks, (∃ v ∈ w.vars, k = .attr "ego" v) ∨ (∃ i < w.stars.length, ∃ v ∈ w.ovars, k = .elem w.list i v))
    (cont : Dict Text (Entry K)) (hcont : ks.foldlM addElemStar (sensed w before) = .ok cont) (k : Key)
    (hk : (∃ v ∈ w.vars, k = .attr "ego" v) ∨ (∃ i < w.stars.length, ∃ v ∈ w.ovars, k = .elem w.list i v)) (lo hi : K)
    (h : varRange lp cont (keyText k) = .ok (lo, hi)) :
    IsLeast {x : K | ∃ ρ : State K, InStars w ρ ∧ ρ k = .num x} lo ∧ IsGreatest {x : K | ∃ ρ : State K, InStars w ρ ∧ ρ k = .num x} hi := by
  obtain ⟨d1, d2, d3⟩ := hu.dots
  have hg := good_elems w hu ks hks _ cont (good_sensed w hu before) hcont
  have ho := ordered_elems w ks hks _ cont (ordered_sensed w hu before) hcont
  have hsub : ∀ v ∈ w.ovars, v ∈ w.vars := fun v hv => hpre.subset hv
  have hidxo : ∀ v ∈ w.ovars, w.vars.idxOf v = w.ovars.idxOf v := by
    intro v hv
    obtain ⟨t, ht⟩ := hpre
    rw [← ht, List.idxOf_append, if_pos hv]
  -- the points of all agents
  obtain ⟨x0, hx0⟩ := hp.point
  have hy0 : ∀ i : Nat, ∃ y : Nat → K, ∀ s, w.stars[i]? = some s → InStar s y := by
    intro (i : Nat)
    by_cases hi : i < w.stars.length
    · obtain ⟨y, hy⟩ := hp.points _ (List.getElem_mem hi)
      refine ⟨y, fun s hs => ?_⟩
      rw [List.getElem?_eq_getElem hi] at hs
      cases hs
      exact hy
    · exact ⟨fun _ => 0, fun s hs => absurd (List.getElem?_eq_some_iff.1 hs).1 hi⟩
  choose y0 hy0 using hy0
  rcases hk with ⟨v, hv, rfl⟩ | ⟨i, hi', v, hv, rfl⟩
  · have hin : Dict.get? cont (keyText (.attr "ego" v)) = some (.one w.star) := by
      have hmem : keyText (.attr "ego" v) ∈ cont.map Prod.fst := by
        have : dotted "ego".toList v.toList ∈ (cont.map Prod.fst).filter (fun k => decide (agentOf k = "ego".toList)) := by
          rw [hg.ego]
          exact List.mem_map.2 ⟨v, hv, rfl⟩
        exact (List.mem_filter.1 this).1
      obtain ⟨e, he⟩ := Option.isSome_iff_exists.1 ((Dict.isSome_get?_iff _ _).2 hmem)
      rcases hg.entries _ e he with ⟨_, _, _, rfl⟩ | ⟨u, hu', h1, _⟩ | ⟨i, s, _, u, hu', h1, _⟩
      · exact he
      · exact absurd (dotted_inj _ _ _ _ dot_ego d3 h1).1.symm (list_ne_ego w hu u hu')
      · exact absurd (dotted_inj _ _ _ _ dot_ego (dot_elemText _ i d3) h1).1.symm (elem_ne_ego w i)
    have hlt := List.idxOf_lt_length_of_mem hv
    have hget : w.vars[w.vars.idxOf v]? = some v := by rw [List.getElem?_eq_getElem hlt, List.getElem_idxOf]
    unfold varRange at h
    rw [hin] at h
    dsimp only at h
    rw [show keyText (.attr "ego" v) = dotted "ego".toList v.toList from rfl] at h hin
    rw [varIndex_spec w hu hsub cont hg ho _ dot_ego v hv _ hin] at h
    obtain ⟨c1, ⟨xl, l1, l2⟩, ⟨xh, h1, h2⟩⟩ := getMaxMin_spec lp hlp w.star hb.1 _ (by rw [hp.dim]; exact hlt) _ h
    have hmem : ∀ x, InStar w.star x → x (w.vars.idxOf v) ∈ {x : K | ∃ ρ : State K, InStars w ρ ∧ ρ (.attr "ego" v) = .num x} := by
      intro x hx
      obtain ⟨ρ, r1, r2, -⟩ := state_of_points w hu x y0 hx hy0
      exact ⟨ρ, r1, r2 _ _ hget⟩
    have hall : ∀ z ∈ {x : K | ∃ ρ : State K, InStars w ρ ∧ ρ (.attr "ego" v) = .num x}, lo ≤ z ∧ z ≤ hi := by
      rintro z ⟨ρ, ⟨⟨x, hx, hxv⟩, -⟩, hz⟩
      rw [hxv _ _ hget] at hz
      injection hz with hz
      rw [← hz]
      exact c1 x hx
    exact ⟨⟨by have := hmem xl l1; rwa [show xl (w.vars.idxOf v) = lo from l2] at this, fun z hz => (hall z hz).1⟩,
      ⟨by have := hmem xh h1; rwa [show xh (w.vars.idxOf v) = hi from h2] at this, fun z hz => (hall z hz).2⟩⟩
  · have hs := List.getElem?_eq_getElem hi'
    have hne : ∃ e, Dict.get? cont (keyText (.elem w.list i v)) = some e := by
      cases he : Dict.get? cont (keyText (.elem w.list i v)) with
      | none => unfold varRange at h; rw [he] at h; cases h
      | some e => exact ⟨e, rfl⟩
    have hin : Dict.get? cont (keyText (.elem w.list i v)) = some (.one w.stars[i]) := by
      obtain ⟨e, he⟩ := hne
      rcases hg.entries _ e he with ⟨u, hu', h1, _⟩ | ⟨u, hu', h1, _⟩ | ⟨i', s, hi2, u, hu', h1, rfl⟩
      · exact absurd (dotted_inj _ _ _ _ (dot_elemText _ i d3) dot_ego h1).1 (elem_ne_ego w i)
      · exact absurd (dotted_inj _ _ _ _ (dot_elemText _ i d3) d3 h1).1 (elemText_ne _ i)
      · obtain ⟨rfl, -⟩ := elemText_inj w hu i i' hi' (List.getElem?_eq_some_iff.1 hi2).1 v u hv hu' h1
        rw [hs] at hi2
        cases hi2
        exact he
    have hlt := List.idxOf_lt_length_of_mem hv
    have hget : w.ovars[w.ovars.idxOf v]? = some v := by rw [List.getElem?_eq_getElem hlt, List.getElem_idxOf]
    unfold varRange at h
    rw [hin] at h
    dsimp only at h
    rw [show keyText (.elem w.list i v) = dotted (elemText w.list.toList i) v.toList from rfl] at h hin
    rw [varIndex_spec w hu hsub cont hg ho _ (dot_elemText _ i d3) v (hsub v hv) _ hin, hidxo v hv] at h
    have hdim := hp.dims _ (List.getElem_mem hi')
    obtain ⟨c1, ⟨xl, l1, l2⟩, ⟨xh, h1, h2⟩⟩ := getMaxMin_spec lp hlp w.stars[i] (hb.2 _ (List.getElem_mem hi')) _ (by rw [hdim]; exact hlt) _ h
    have hmem : ∀ x, InStar w.stars[i] x → x (w.ovars.idxOf v) ∈ {x : K | ∃ ρ : State K, InStars w ρ ∧ ρ (.elem w.list i v) = .num x} := by
      intro x hx
      obtain ⟨ρ, r1, -, r2⟩ := state_of_points w hu x0 (fun j => if j = i then x else y0 j) hx0 (by
        intro j s hj
        split
        · next hji =>
          subst hji
          rw [hs] at hj
          cases hj
          exact hx
        · exact hy0 j s hj)
      exact ⟨ρ, r1, by rw [r2 i _ _ hi' hget, if_pos rfl]⟩
    have hall : ∀ z ∈ {x : K | ∃ ρ : State K, InStars w ρ ∧ ρ (.elem w.list i v) = .num x}, lo ≤ z ∧ z ≤ hi := by
      rintro z ⟨ρ, ⟨-, hρ⟩, hz⟩
      obtain ⟨x, hx, hxv⟩ := hρ i _ hs
      rw [hxv _ _ hget] at hz
      injection hz with hz
      rw [← hz]
      exact c1 x hx
    exact ⟨⟨by have := hmem xl l1; rwa [show xl (w.ovars.idxOf v) = lo from l2] at this, fun z hz => (hall z hz).1⟩,
      ⟨by have := hmem xh h1; rwa [show xh (w.ovars.idxOf v) = hi from h2] at this, fun z hz => (hall z hz).2⟩⟩

/-- **C71** fails after another guard with a lane query: the temporary variable it has left in the dictionary stops every later evaluation, whatever
else is in the dictionary. (The assertions of one step share the dictionary.) -/
theorem C71_left_violated (cont : Dict Text (Entry K)) (n : Nat) (s : StarSet K) (h : (keyText (.tmp n), Entry.one s) ∈ cont) (var : Text) :
    ∃ e, varIndex cont var = .error e := by
  have h1 : '.' ∉ "tmp_variable".toList := by decide +kernel
  have h2 : '_' ∈ "tmp_variable".toList := by decide +kernel
  refine index_tmp cont ("tmp_variable".toList ++ Nat.toDigits 10 n) s h ?_ ?_ var
  · rw [List.mem_append, not_or]
    exact ⟨h1, dot_digits n⟩
  · rw [List.mem_append]
    exact .inl h2

/-- A solver that is always right. -/
noncomputable def oracle (W : World K) : StarSolver K := fun z cs =>
  open Classical in if ∃ σ : Text → K, (∀ c ∈ cs, Con.Holds σ c) ∧ evZ W (stateOf σ) z then .sat else .unsat

theorem oracle_correct (W : World K) : SolverCorrect W (oracle W) := by
  intro z cs _
  unfold oracle
  split
  · next h => exact ⟨fun _ => h, (fun h => nomatch h)⟩
  · next h => exact ⟨(fun h => nomatch h), fun _ σ h1 h2 => h ⟨σ, h1, h2⟩⟩

theorem oracle_complete (W : World K) : SolverComplete (oracle W) := by
  intro z cs _
  unfold oracle
  split <;> simp

end

namespace StarGuardEx

/-- `v` from 5 to 7 and `x = v - 6`: center (6, 0), basis vector (1, 1), `-1 ≤ α ≤ 1`. -/
def star : StarSet ℚ := ⟨ofList [6, 0], ofRows 2 [ofList [1, 1]], ofRows 1 [ofList [1], ofList [-1]], ofList [1, 1]⟩

/-- A single point. -/
def pt (l : List ℚ) : StarSet ℚ := ⟨ofList l, ofRows l.length [], ofRows 0 [], ofList []⟩

theorem star_in (x : Nat → ℚ) : InStar star x ↔ ∃ a, -1 ≤ a ∧ a ≤ 1 ∧ x 0 = 6 + a ∧ x 1 = a := by
  unfold InStar Point Sat
  constructor
  · rintro ⟨α, h1, h2⟩
    have a := h1 0 (by decide)
    have b := h1 1 (by decide)
    have c := h2 0 (by decide)
    have d := h2 1 (by decide)
    simp [star, ofList, ofRows] at a b c d
    exact ⟨α 0, by linarith, by linarith, c, d⟩
  · rintro ⟨a, h1, h2, h3, h4⟩
    refine ⟨fun _ => a, fun i hi => ?_, fun d hd => ?_⟩
    · have : i = 0 ∨ i = 1 := by simp only [star, ofRows] at hi; simp at hi; omega
      rcases this with rfl | rfl <;> simp [star, ofList, ofRows] <;> linarith
    · have : d = 0 ∨ d = 1 := by simp only [star, ofList] at hd; simp at hd; omega
      rcases this with rfl | rfl <;> simp [star, ofList, ofRows, h3, h4]

theorem pt_in (l : List ℚ) (x : Nat → ℚ) : InStar (pt l) x ↔ ∀ d < l.length, x d = l[d]?.getD 0 := by
  unfold InStar Point Sat
  simp [pt, ofList, ofRows]

/-- The agent itself, and two others. -/
def agents : Agents ℚ := ⟨["v", "x"], star, "others", ["v", "x"], [pt [1, 2], pt [3, 4]]⟩

theorem agents_names : Unmistakable agents where
  dots := by decide +kernel
  apart := by decide +kernel
  ego := by decide +kernel
  tmp := by decide +kernel

theorem agents_proper : Proper agents where
  dim := by decide +kernel
  dims := by decide +kernel
  point := ⟨fun d => if d = 0 then 6 else 0, (star_in _).2 ⟨0, by norm_num⟩⟩
  points := by
    intro s hs
    simp only [agents, List.mem_cons, List.not_mem_nil, or_false] at hs
    rcases hs with rfl | rfl
    · exact ⟨_, (pt_in _ _).2 (fun d _ => rfl)⟩
    · exact ⟨_, (pt_in _ _).2 (fun d _ => rfl)⟩

/-- `ego.v + others_0.v >= others_1.x + 4` -/
def guard : Fml ℚ := .cmp .ge (.bin .add (.var (.attr "ego" "v")) (.var (.elem "others" 0 "v")))
  (.bin .add (.var (.elem "others" 1 "x")) (.lit (.num 4)))

def keys : List Key := [.elem "others" 0 "v", .elem "others" 1 "x"]

theorem keys_own : ∀ k ∈ keys, (∃ v ∈ agents.vars, k = .attr "ego" v) ∨ (∃ i < agents.stars.length, ∃ v ∈ agents.ovars, k = .elem agents.list i v) := by
  decide +kernel

theorem guard_own : Mentions agents guard := by
  unfold Mentions
  decide +kernel

/-- A state with the agent at `v = a`. -/
def state (a : ℚ) : State ℚ
  | .attr _ v => .num (if v = "v" then a else a - 6)
  | .elem _ i v => .num (if i = 0 then (if v = "v" then 1 else 2) else (if v = "v" then 3 else 4))
  | _ => .num 0

theorem state_in (a : ℚ) (h1 : 5 ≤ a) (h2 : a ≤ 7) : InStars agents (state a) := by
  refine ⟨⟨fun d => if d = 0 then a else a - 6, (star_in _).2 ⟨a - 6, by linarith, by linarith, by simp, by simp⟩, ?_⟩, ?_⟩
  · rintro (_ | _ | d) v hv
    · cases hv; rfl
    · cases hv; rfl
    · cases hv
  · rintro (_ | _ | i) s hs
    · cases hs
      refine ⟨fun d => [1, 2][d]?.getD 0, (pt_in _ _).2 (fun d _ => rfl), ?_⟩
      rintro (_ | _ | d) v hv
      · cases hv; rfl
      · cases hv; rfl
      · cases hv
    · cases hs
      refine ⟨fun d => [3, 4][d]?.getD 0, (pt_in _ _).2 (fun d _ => rfl), ?_⟩
      rintro (_ | _ | d) v hv
      · cases hv; rfl
      · cases hv; rfl
      · cases hv
    · cases hs

/-- `C70_guard_partial` applies to this guard: it is hit, but not contained. The agent itself comes second. -/
example (W : World ℚ) (S : StarSolver ℚ) (hS : SolverCorrect W S) (hC : SolverComplete S) :
    ∃ cont, keys.foldlM addElemStar (sensed agents 1) = .ok cont ∧ contStars S cont [guard] = .ok (true, false) := by
  have hcont : ∃ cont, keys.foldlM addElemStar (sensed agents 1) = .ok cont := ⟨_, rfl⟩
  obtain ⟨cont, hcont⟩ := hcont
  have hrun : ∃ r, contStars S cont [guard] = .ok r := by
    have hg : genList [guard] = .ok (.inr (.cmp .ge (.bin .add (.var (.attr "ego" "v")) (.var (.elem "others" 0 "v")))
      (.bin .add (.var (.elem "others" 1 "x")) (.lit (.num 4))))) := rfl
    have h1 : (match keys.foldlM addElemStar (sensed agents 1) with
      | .ok cont => decide (∀ k ∈ keysF guard, (Dict.get? cont (keyText k)).isSome = true) && (allCons cont (.cmp .ge (.bin .add (.var (.attr "ego" "v")) (.var (.elem "others" 0 "v")))
      (.bin .add (.var (.elem "others" 1 "x")) (.lit (.num 4))))).isOk
      | .error _ => false) = true := by decide +kernel
    rw [hcont] at h1
    simp only [Bool.and_eq_true, decide_eq_true_eq] at h1
    obtain ⟨h1, h2⟩ := h1
    generalize hcs : allCons cont _ = r at h2
    cases r with
    | error e => simp [Except.isOk, Except.toBool] at h2
    | ok cs => exact ⟨_, contStars_run S cont _ _ cs hg h1 (by decide +kernel) hcs⟩
  obtain ⟨⟨hit, contained⟩, hrun⟩ := hrun
  obtain ⟨h1, h2⟩ := C70_guard_partial W S hS hC agents agents_names agents_proper 1 keys keys_own cont hcont [guard]
    (by simpa using guard_own) hit contained hrun
  have hh : hit = true := h1.2 ⟨state 7, state_in 7 (by norm_num) (by norm_num), by
    intro f hf
    rw [List.mem_singleton.1 hf]
    simp [evF, guard, evT, look, state, holds, arithOp, toNum]
    norm_num⟩
  have hc : contained = false := by
    rw [← Bool.not_eq_true, h2]
    intro hall
    have := hall (state 5) (state_in 5 (by norm_num) (by norm_num)) guard (by simp)
    simp [evF, guard, evT, look, state, holds, arithOp, toNum] at this
    norm_num at this
  exact ⟨cont, hcont, by rw [hrun, hh, hc]⟩

/-- Such a solver exists. -/
example (W : World ℚ) : ∃ S : StarSolver ℚ, SolverCorrect W S ∧ SolverComplete S := ⟨oracle W, oracle_correct W, oracle_complete W⟩

/-! ### Names that are mistaken for each other -/

/-- The agent itself at `v = 6` and `x = 0`; another agent, listed first, with a variable `category`. -/
def cats : Agents ℚ := ⟨["v", "x"], pt [6, 0], "others", ["category"], [pt [1]]⟩

/-- `ego.v > 5` -/
def fast : Fml ℚ := .cmp .gt (.var (.attr "ego" "v")) (.lit (.num 5))

/-- The agent itself with `alpha_1` from 4 to 6. -/
def alphas : Agents ℚ := ⟨["alpha_1"], ⟨ofList [5], ofRows 1 [ofList [1]], ofRows 1 [ofList [1], ofList [-1]], ofList [1, 1]⟩, "others", [], []⟩

/-- `ego.alpha_1 > 3` -/
def big : Fml ℚ := .cmp .gt (.var (.attr "ego" "alpha_1")) (.lit (.num 3))

end StarGuardEx

open StarGuardEx in
/-- **C70** fails with names that contain `ego`: `category` is one of the names in which the text `ego` is found, so that it is taken for the first
dimension of the agent itself, and `v` for the second. The guard `ego.v > 5` is true in all states, and no correct solver finds it. -/
theorem C70_names_violated (W : World ℚ) (S : StarSolver ℚ) (hS : SolverCorrect W S) : Proper cats ∧ Mentions cats fast ∧
    (∃ ρ, InStars cats ρ) ∧ (∀ ρ, InStars cats ρ → evF W ρ fast) ∧ contStars S (sensed cats 1) [fast] = .ok (false, false) := by
  refine ⟨⟨by decide +kernel, by decide +kernel, ⟨_, (pt_in _ _).2 (fun d _ => rfl)⟩, ?_⟩, by unfold Mentions; decide +kernel, ?_, ?_, ?_⟩
  · intro s hs
    rw [List.mem_singleton.1 hs]
    exact ⟨_, (pt_in _ _).2 (fun d _ => rfl)⟩
  · refine ⟨fun k => match k with
      | .attr _ v => .num (if v = "v" then 6 else 0)
      | _ => .num 1, ⟨⟨fun d => [6, 0][d]?.getD 0, (pt_in _ _).2 (fun d _ => rfl), ?_⟩, ?_⟩⟩
    · rintro (_ | _ | d) v hv
      · cases hv; rfl
      · cases hv; rfl
      · cases hv
    · rintro (_ | i) s hs
      · cases hs
        refine ⟨fun d => [1][d]?.getD 0, (pt_in _ _).2 (fun d _ => rfl), ?_⟩
        rintro (_ | d) v hv
        · cases hv; rfl
        · cases hv
      · cases hs
  · rintro ρ ⟨⟨x, hx, hv⟩, -⟩
    have h0 := (pt_in _ _).1 hx 0 (by decide)
    have hv := hv 0 "v" rfl
    simp [evF, fast, evT, look, hv, h0, holds]
    norm_num
  · have hcs : allCons (sensed cats 1) (.cmp .gt (.var (.attr "ego" "v")) (.lit (.num 5))) =
        .ok [.eq 6 [] "others_category".toList, .eq 0 [] "ego_v".toList] := by decide +kernel
    rw [contStars_run S _ _ (.cmp .gt (.var (.attr "ego" "v")) (.lit (.num 5))) _ rfl (by decide +kernel) (by decide +kernel) hcs]
    unfold answers
    rw [if_neg]
    intro h
    obtain ⟨σ, h1, h2⟩ := (hS _ _ (by decide +kernel)).1 h
    have h3 := h1 (.eq 0 [] "ego_v".toList) (by simp)
    have hn : under (keyText (.attr "ego" "v")) = "ego_v".toList := by decide +kernel
    simp only [Con.Holds, List.map_nil, List.sum_nil, add_zero] at h3
    simp only [evZ, evT, look, stateOf, hn, ← h3, holds] at h2
    norm_num at h2

open StarGuardEx in
/-- **C70** fails for a variable named like a coefficient: with `alpha_1`, the query says `5 + alpha_1 = alpha_1`. -/
theorem C70_alpha_violated (W : World ℚ) (S : StarSolver ℚ) (hS : SolverCorrect W S) : Proper alphas ∧ Mentions alphas big ∧
    (∃ ρ, InStars alphas ρ) ∧ (∀ ρ, InStars alphas ρ → evF W ρ big) ∧ contStars S (sensed alphas 0) [big] = .ok (false, false) := by
  have hin : ∀ x : Nat → ℚ, InStar alphas.star x ↔ 4 ≤ x 0 ∧ x 0 ≤ 6 := by
    intro x
    unfold InStar Point Sat
    constructor
    · rintro ⟨α, h1, h2⟩
      have a := h1 0 (by decide)
      have b := h1 1 (by decide)
      have c := h2 0 (by decide)
      simp [alphas, ofList, ofRows] at a b c
      constructor <;> linarith
    · rintro ⟨h1, h2⟩
      refine ⟨fun _ => x 0 - 5, fun i hi => ?_, fun d hd => ?_⟩
      · have : i = 0 ∨ i = 1 := by simp only [alphas, ofRows] at hi; simp at hi; omega
        rcases this with rfl | rfl <;> simp [alphas, ofList, ofRows] <;> linarith
      · have : d = 0 := by simp only [alphas, ofList] at hd; simp at hd; omega
        subst this
        simp [alphas, ofList, ofRows]
  refine ⟨⟨by decide +kernel, by decide +kernel, ⟨fun _ => 5, (hin _).2 (by norm_num)⟩, by simp [alphas]⟩, by unfold Mentions; decide +kernel, ?_, ?_, ?_⟩
  · refine ⟨fun _ => .num 5, ⟨⟨fun _ => 5, (hin _).2 (by norm_num), fun d v _ => rfl⟩, fun i s hs => by simp [alphas] at hs⟩⟩
  · rintro ρ ⟨⟨x, hx, hv⟩, -⟩
    have h0 := (hin x).1 hx
    have hv := hv 0 "alpha_1" rfl
    simp [evF, big, evT, look, hv, holds]
    linarith
  · have hcs : allCons (sensed alphas 0) (.cmp .gt (.var (.attr "ego" "alpha_1")) (.lit (.num 3))) =
        .ok [.eq 5 [(1, "ego_alpha_1".toList)] "ego_alpha_1".toList, .le [(1, "ego_alpha_1".toList)] 1, .le [(-1, "ego_alpha_1".toList)] 1] := by
      decide +kernel
    rw [contStars_run S _ _ (.cmp .gt (.var (.attr "ego" "alpha_1")) (.lit (.num 3))) _ rfl (by decide +kernel) (by decide +kernel) hcs]
    unfold answers
    rw [if_neg]
    intro h
    obtain ⟨σ, h1, h2⟩ := (hS _ _ (by decide +kernel)).1 h
    have h3 := h1 (.eq 5 [(1, "ego_alpha_1".toList)] "ego_alpha_1".toList) (by simp)
    simp only [Con.Holds, List.map_cons, List.map_nil, List.sum_cons, List.sum_nil, add_zero, one_mul] at h3
    linarith

namespace StarGuardEx

/-- The agent itself at `x = 5` and `v = 6`; another agent, whose variables come in another order, at `v = 1` and `x = 2`. -/
def mixed : Agents ℚ := ⟨["x", "v"], pt [5, 6], "others", ["v", "x"], [pt [1, 2]]⟩

theorem mixed_names : Unmistakable mixed where
  dots := by decide +kernel
  apart := by decide +kernel
  ego := by decide +kernel
  tmp := by decide +kernel

theorem pt_built (l : List ℚ) : Built (pt l) := by
  rw [built_iff]
  simp [pt, ofRows, ofList]

theorem star_built : Built star := by
  rw [built_iff]
  decide

theorem pt_range (l : List ℚ) (i : Nat) (hi : i < l.length) : ∃ r, getMaxMin idealLP (pt l) i = .ok r := by
  refine getMaxMin_ideal (pt l) (pt_built l) i (by simpa [pt, ofRows] using hi) (fun _ => 0) (fun _ => 0) ?_ ?_ ?_ ?_
  · exact ⟨by simp [Sat, pt, ofRows], by simp⟩
  · exact ⟨by simp [Sat, pt, ofRows], by simp⟩
  · intro y _; simp [pt, ofRows]
  · intro y _; simp [pt, ofRows]

theorem star_range : ∃ r, getMaxMin idealLP star 1 = .ok r := by
  have hf : ∀ y, LPFeas false star.C star.g y → -1 ≤ y 0 ∧ y 0 ≤ 1 := by
    rintro y ⟨hy, -⟩
    have a := hy 0 (by decide)
    have b := hy 1 (by decide)
    simp [star, ofRows, ofList] at a b
    exact ⟨by linarith, by linarith⟩
  have hfeas : ∀ c : ℚ, -1 ≤ c → c ≤ 1 → LPFeas false star.C star.g (fun _ => c) := by
    intro c h1 h2
    refine ⟨fun i hi => ?_, by simp⟩
    have : i = 0 ∨ i = 1 := by simp only [star, ofRows] at hi; simp at hi; omega
    rcases this with rfl | rfl <;> simp [star, ofRows, ofList] <;> linarith
  refine getMaxMin_ideal star star_built 1 (by decide) (fun _ => -1) (fun _ => 1) (hfeas _ (by norm_num) (by norm_num))
    (hfeas _ (by norm_num) (by norm_num)) ?_ ?_
  · intro y hy
    have := hf y hy
    simp [star, ofRows, ofList]
    linarith
  · intro y hy
    have := hf y hy
    simp [star, ofRows, ofList]
    linarith

/-- `C71_range_partial` applies to `ego.x`: it goes from -1 to 1. -/
example : ∃ cont lo hi, keys.foldlM addElemStar (sensed agents 1) = .ok cont ∧ varRange idealLP cont (keyText (.attr "ego" "x")) = .ok (lo, hi) ∧
    lo = -1 ∧ hi = 1 := by
  have hcont : ∃ cont, keys.foldlM addElemStar (sensed agents 1) = .ok cont ∧ Dict.get? cont (keyText (.attr "ego" "x")) = some (.one star) ∧
      varIndex cont (keyText (.attr "ego" "x")) = .ok (some 1) := by
    refine ⟨_, rfl, rfl, ?_⟩
    decide +kernel
  obtain ⟨cont, hcont, h1, h2⟩ := hcont
  obtain ⟨⟨lo, hi⟩, hr⟩ := star_range
  have hrun : varRange idealLP cont (keyText (.attr "ego" "x")) = .ok (lo, hi) := by
    unfold varRange
    rw [h1]
    dsimp only
    rw [h2]
    exact hr
  obtain ⟨⟨⟨ρ1, r1, r2⟩, l2⟩, ⟨⟨ρ2, r3, r4⟩, g2⟩⟩ := C71_range_partial idealLP idealLP_correct agents agents_names agents_proper
    ⟨star_built, by
      intro s hs
      simp only [agents, List.mem_cons, List.not_mem_nil, or_false] at hs
      rcases hs with rfl | rfl
      · exact pt_built _
      · exact pt_built _⟩ (by decide) 1 keys keys_own cont hcont (.attr "ego" "x") (by decide +kernel) lo hi hrun
  refine ⟨cont, lo, hi, hcont, hrun, ?_, ?_⟩
  · refine le_antisymm (l2 ⟨state 5, state_in 5 (by norm_num) (by norm_num), by simp [state]; norm_num⟩) ?_
    obtain ⟨⟨x, hx, hv⟩, -⟩ := r1
    have := hv 1 "x" rfl
    rw [r2] at this
    injection this with this
    obtain ⟨a, a1, a2, _, a3⟩ := (star_in x).1 hx
    linarith
  · refine le_antisymm ?_ (g2 ⟨state 7, state_in 7 (by norm_num) (by norm_num), by simp [state]; norm_num⟩)
    obtain ⟨⟨x, hx, hv⟩, -⟩ := r3
    have := hv 1 "x" rfl
    rw [r4] at this
    injection this with this
    obtain ⟨a, a1, a2, _, a3⟩ := (star_in x).1 hx
    linarith

/-- `C71_left_violated` applies to the dictionary that a first assertion leaves. -/
example : ∃ e, varIndex (Dict.set (sensed agents 1) (keyText (.tmp 5)) (.one (pt [3]))) (keyText (.attr "ego" "x")) = .error e :=
  C71_left_violated _ 5 (pt [3]) (by
    have : Dict.get? (Dict.set (sensed agents 1) (keyText (.tmp 5)) (Entry.one (pt [3]))) (keyText (.tmp 5)) = some (.one (pt [3])) := Dict.get?_set_self _ _ _
    exact Dict.mem_of_get? this) _

end StarGuardEx

open StarGuardEx in
/-- **C71** fails if the variables of the other agent come in another order than those of the agent itself: `others_0.x` is always 2, but the range
that is used is the one of `others_0.v`. -/
theorem C71_order_violated : Unmistakable mixed ∧ Proper mixed ∧ (∃ ρ, InStars mixed ρ) ∧
    (∀ ρ, InStars mixed ρ → ρ (.elem "others" 0 "x") = .num 2) ∧
    ∃ cont, [Key.elem "others" 0 "x"].foldlM addElemStar (sensed mixed 0) = .ok cont ∧
      (∃ r, varRange idealLP cont (keyText (.elem "others" 0 "x")) = .ok r) ∧
      ∀ lp, LPCorrect lp → ∀ r, varRange lp cont (keyText (.elem "others" 0 "x")) = .ok r → r = (1, 1) := by
  have hp : Proper mixed := by
    refine ⟨by decide +kernel, by decide +kernel, ⟨_, (pt_in _ _).2 (fun d _ => rfl)⟩, ?_⟩
    intro s hs
    rw [List.mem_singleton.1 hs]
    exact ⟨_, (pt_in _ _).2 (fun d _ => rfl)⟩
  refine ⟨mixed_names, hp, ?_, ?_, ?_⟩
  · obtain ⟨ρ, h, -⟩ := state_of_points mixed mixed_names (fun d => [5, 6][d]?.getD 0) (fun _ d => [1, 2][d]?.getD 0) ((pt_in _ _).2 (fun d _ => rfl)) (by
      intro i s hs
      have : s = pt [1, 2] := List.mem_singleton.1 (List.mem_of_getElem? hs)
      rw [this]
      exact (pt_in _ _).2 (fun d _ => rfl))
    exact ⟨ρ, h⟩
  · rintro ρ ⟨-, h⟩
    obtain ⟨x, hx, hv⟩ := h 0 (pt [1, 2]) rfl
    have h1 : ρ (.elem "others" 0 "x") = .num (x 1) := hv 1 "x" rfl
    rw [h1, (pt_in _ _).1 hx 1 (by decide)]
    rfl
  · have hcont : ∃ cont, [Key.elem "others" 0 "x"].foldlM addElemStar (sensed mixed 0) = .ok cont ∧
        Dict.get? cont (keyText (.elem "others" 0 "x")) = some (.one (pt [1, 2])) ∧
        varIndex cont (keyText (.elem "others" 0 "x")) = .ok (some 0) := by
      refine ⟨_, rfl, rfl, ?_⟩
      decide +kernel
    obtain ⟨cont, hcont, h1, h2⟩ := hcont
    have hrun : ∀ lp, varRange lp cont (keyText (.elem "others" 0 "x")) = getMaxMin lp (pt [1, 2]) 0 := by
      intro lp
      unfold varRange
      rw [h1]
      dsimp only
      rw [h2]
      rfl
    refine ⟨cont, hcont, ?_, fun lp hlp r hr => ?_⟩
    · rw [hrun]
      exact pt_range _ 0 (by decide)
    · rw [hrun] at hr
      obtain ⟨-, ⟨x, hx, e1⟩, ⟨x', hx', e2⟩⟩ := getMaxMin_spec lp hlp (pt [1, 2]) (pt_built _) 0 (by decide) r hr
      have a := (pt_in _ _).1 hx 0 (by decide)
      have b := (pt_in _ _).1 hx' 0 (by decide)
      refine Prod.ext ?_ ?_
      · rw [← e1, a]; rfl
      · rw [← e2, b]; rfl

end Verif.Props
