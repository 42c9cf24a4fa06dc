import Verif.Proofs.ParserWrap

/-!
C67, calls of functions of the map in sensors: `get_lane_heading` and `get_lateral_distance`.
-/

set_option autoImplicit false

namespace Verif.Props
open Verif.Spec Verif.Pw Verif.Pars Verif.Ang

section
variable {K : Type} [Field K] [LinearOrder K] [FloorRing K]

/-- A function of the map in a sensor, and the function that computes its bounds. -/
def LaneFunction (g f : String) : Prop := (g = "get_lane_heading" ∧ f = "get_heading_bounds_optimized") ∨ (g = "get_lateral_distance" ∧ f = "get_lateral_distance_bounds_optimized")

private theorem mapCall_general (ctx : Ctx K) (mapB : String → List (K × K) → Except String (K × K)) (pws : List (PFun K))
    (pwH : PFun K → List String → Bounds K → Except String (List (K × K))) (g f : String) (hg : LaneFunction g f) (xn yn : String) (hxn : ∀ t ∈ specialTexts, ¬ Occurs t xn)
    (hyn : ∀ t ∈ specialTexts, ¬ Occurs t yn) (hpw : ∀ p ∈ pws, ∀ s ∈ [f, xn, yn], ¬ Occurs p.name s) (cur : Bounds K) :
    dispatch ctx mapB pws pwH (.call2 g (.name xn) (.name yn)) cur = handleMap mapB f (firstArgs (Dict.keys cur) (.call2 f (.name xn) (.name yn) : PE K)) cur := by
  have hal : aliasName g = f := by rcases hg with ⟨rfl, rfl⟩ | ⟨rfl, rfl⟩ <;> decide +kernel
  have hmap : mapIds aliasName (.call2 g (.name xn) (.name yn) : PE K) = .call2 f (.name xn) (.name yn) := by
    simp only [mapIds, hal, aliasName_id yn hyn, aliasName_id xn hxn]
  have hm : ∀ t ∈ specialTexts, mentions t (.call2 f (.name xn) (.name yn) : PE K) = has t f := by
    intro t ht
    have h1 : has t xn = false := by rw [Bool.eq_false_iff]; exact fun h => hxn t ht ((has_iff _ _).1 h)
    have h2 : has t yn = false := by rw [Bool.eq_false_iff]; exact fun h => hyn t ht ((has_iff _ _).1 h)
    simp [mentions, idents, h1, h2]
  have hang : angularFunctions.find? (fun t => mentions t (.call2 f (.name xn) (.name yn) : PE K)) = none := by
    rw [List.find?_eq_none]
    intro t ht
    rw [hm t (by simp only [angularFunctions, List.mem_cons, List.not_mem_nil, or_false] at ht; rcases ht with rfl | rfl <;> simp [specialTexts])]
    revert t
    rcases hg with ⟨rfl, rfl⟩ | ⟨rfl, rfl⟩ <;> decide +kernel
  have hp : pws.find? (fun p => mentions p.name (.call2 f (.name xn) (.name yn) : PE K)) = none := by
    rw [List.find?_eq_none]
    intro p hp hmm
    obtain ⟨s, hs, ho⟩ := (mentions_iff _ _).1 hmm
    exact hpw p hp s (by simpa [idents] using hs) ho
  have hfind : mapFunctions.find? (fun t => mentions t (.call2 f (.name xn) (.name yn) : PE K)) = some f := by
    have e1 := hm "get_heading_bounds_optimized" (by simp [specialTexts])
    have e2 := hm "get_lateral_distance_bounds_optimized" (by simp [specialTexts])
    rcases hg with ⟨rfl, rfl⟩ | ⟨rfl, rfl⟩
    · have : has "get_heading_bounds_optimized" "get_heading_bounds_optimized" = true := by decide +kernel
      simp only [mapFunctions, List.find?_cons, e1, this]
    · have h1 : has "get_heading_bounds_optimized" "get_lateral_distance_bounds_optimized" = false := by decide +kernel
      have h2 : has "get_lateral_distance_bounds_optimized" "get_lateral_distance_bounds_optimized" = true := by decide +kernel
      simp only [mapFunctions, List.find?_cons, e1, e2, h1, h2]
  unfold dispatch
  simp only [hmap, hang, hp, hfind]

private theorem mapCall_dispatch (ctx : Ctx K) (pws : List (PFun K)) (g f : String) (hg : LaneFunction g f) (xn yn : String) (hxn : ∀ t ∈ specialTexts, ¬ Occurs t xn)
    (hyn : ∀ t ∈ specialTexts, ¬ Occurs t yn) (hpw : ∀ p ∈ pws, ∀ s ∈ [f, xn, yn], ¬ Occurs p.name s) (cur : Bounds K) :
    exprBounds ctx pws (.call2 g (.name xn) (.name yn)) cur = handleMap ctx.mapB f (firstArgs (Dict.keys cur) (.call2 f (.name xn) (.name yn) : PE K)) cur :=
  mapCall_general ctx ctx.mapB pws _ g f hg xn yn hxn hyn hpw cur

/-- If the bounds of a function of the map are right for boxes of two intervals, the bounds of a call in a sensor contain its value, for any number of intervals of each
argument. -/
theorem C67_map_partial (ctx : Ctx K) (pws : List (PFun K)) (g f : String) (hg : LaneFunction g f)
    (hB : ∀ a b lu, ctx.mapB f [a, b] = .ok lu → ∀ x y v, a.1 ≤ x → x ≤ a.2 → b.1 ≤ y → y ≤ b.2 → ctx.F.f2 g x y = some v → lu.1 ≤ v ∧ v ≤ lu.2)
    (xn yn : String) (hxn : ∀ t ∈ specialTexts, ¬ Occurs t xn) (hyn : ∀ t ∈ specialTexts, ¬ Occurs t yn) (hpw : ∀ p ∈ pws, ∀ s ∈ [f, xn, yn], ¬ Occurs p.name s)
    (cur : Bounds K) (l : List (K × K)) (h : exprBounds ctx pws (.call2 g (.name xn) (.name yn)) cur = .ok l) (env : Env K) (v : K) (hin : EnvIn env cur)
    (hv : evalE ctx.F env (.call2 g (.name xn) (.name yn)) = some v) : InSome l v := by
  simp only [evalE, Option.bind_eq_some_iff] at hv
  obtain ⟨x, hxv, y, hyv, hv⟩ := hv
  have hkx : xn ∈ Dict.keys cur := hin.known _ _ hxv
  have hky : yn ∈ Dict.keys cur := hin.known _ _ hyv
  rw [mapCall_dispatch ctx pws g f hg xn yn hxn hyn hpw cur, firstArgs_call2 _ _ _ _ hkx hky] at h
  unfold handleMap at h
  obtain ⟨bl, hbl, h⟩ := (bind_ok_iff _ _ _).1 h
  obtain ⟨out, hout, h⟩ := (bind_ok_iff _ _ _).1 h
  obtain ⟨c, hc, hcv⟩ := combo_of_env env cur hin _ _ (lookupAll_ok _ _ _ hbl)
  obtain ⟨lu, hlu, hco⟩ := forall₂_mem_left ((mapM_ok_iff _ _ _).1 hout) hc
  refine envelope_covers out l h v ⟨lu, hlu, ?_⟩
  cases hcv with
  | cons h1 h2 => cases h2 with
    | cons h2 h3 =>
      cases h3
      obtain ⟨x', hx', hx1, hx2⟩ := h1
      obtain ⟨y', hy', hy1, hy2⟩ := h2
      rw [hxv] at hx'; injection hx' with hx'; subst hx'
      rw [hyv] at hy'; injection hy' with hy'; subst hy'
      exact hB _ _ lu hco _ _ v hx1 hx2 hy1 hy2 hv

/-- Arguments without bounds, as the mode and the map of a call, are not passed on. -/
theorem C67_fixed_arguments (ctx : Ctx K) (pws : List (PFun K)) (g f : String) (hg : LaneFunction g f) (xn yn : String) (hxn : ∀ t ∈ specialTexts, ¬ Occurs t xn)
    (hyn : ∀ t ∈ specialTexts, ¬ Occurs t yn) (hpw : ∀ p ∈ pws, ∀ s ∈ [f, xn, yn], ¬ Occurs p.name s) (cur : Bounds K) (hx : xn ∉ Dict.keys cur) (iv lu : K × K)
    (hy : Dict.get? cur yn = some [iv]) (hB : ctx.mapB f [iv] = .ok lu) : exprBounds ctx pws (.call2 g (.name xn) (.name yn)) cur = .ok [lu] := by
  have hky : yn ∈ Dict.keys cur := List.mem_map.2 ⟨_, Dict.mem_of_get? hy, rfl⟩
  have hargs : firstArgs (Dict.keys cur) (.call2 f (.name xn) (.name yn) : PE K) = [yn] := by
    have : (walk (depth (.call2 f (.name xn) (.name yn) : PE K)) [(.call2 f (.name xn) (.name yn) : PE K)]).findSome? callArgs = some [(.name xn : PE K), .name yn] := rfl
    simp only [firstArgs, this, List.filterMap_cons, hx, hky, if_true, if_false, List.filterMap_nil]
  rw [mapCall_dispatch ctx pws g f hg xn yn hxn hyn hpw cur, hargs]
  unfold handleMap lookupAll
  simp only [List.mapM_cons, List.mapM_nil, hy]
  change ((product [[iv]]).mapM (ctx.mapB f)).bind envelope = _
  have : product [[iv]] = [[iv]] := rfl
  rw [this]
  simp only [List.mapM_cons, List.mapM_nil, hB]
  rfl

/-- In a branch of a piecewise function, where there is no map, a call of a function of the map is refused, whatever the bounds of its arguments. -/
theorem C67_branch_refused (ctx : Ctx K) (g f : String) (hg : LaneFunction g f) (xn yn : String) (hxn : ∀ t ∈ specialTexts, ¬ Occurs t xn)
    (hyn : ∀ t ∈ specialTexts, ¬ Occurs t yn) (cur : Bounds K) (l : List (K × K)) : branchBounds ctx (.call2 g (.name xn) (.name yn)) cur ≠ .ok l := by
  unfold branchBounds
  rw [mapCall_general ctx _ [] _ g f hg xn yn hxn hyn (by intro p hp; cases hp) cur]
  unfold handleMap
  cases lookupAll cur (firstArgs (Dict.keys cur) (.call2 f (.name xn) (.name yn) : PE K)) with
  | error s => intro h; cases h
  | ok bl =>
    change Except.bind (List.mapM (fun _ => (.error "Exception" : Except String (K × K))) (product bl)) envelope ≠ _
    cases product bl with
    | nil => intro h; cases h
    | cons a as => rw [List.mapM_cons]; intro h; cases h

/-- `parse_function_array` refuses a box with another number of intervals than the function has parameters, and one with an interval whose ends are in the wrong order; the
cache stays as it is. -/
theorem C67_array_refused (p : K) (eb : EB K) (f : PFun K) (input : List (K × K)) (cache : Bool) (n : Nat) (st : Cache K)
    (h : input.length ≠ f.params.length ∨ ∃ b ∈ input, b.2 < b.1) : parseArray p eb f input cache n st = (.error "ValueError", st) := by
  unfold parseArray
  by_cases h1 : input.length ≠ f.params.length
  · rw [if_pos h1]
  · rw [if_neg h1]
    obtain ⟨b, hb, hlt⟩ := h.resolve_left h1
    rw [if_pos (List.any_eq_true.2 ⟨b, hb, by simpa using hlt⟩)]

end

/-- A box that is refused. -/
example (eb : EB ℚ) : parseArray 3 eb ⟨"f", ["a", "b"], []⟩ [(0, 1), (2, 1)] true 4 [] = (.error "ValueError", []) :=
  C67_array_refused _ _ _ _ _ _ _ (.inr ⟨(2, 1), by simp, by norm_num⟩)

/-- The hypotheses on names hold for the arguments `x` and `y`, without piecewise functions. -/
example : LaneFunction "get_lateral_distance" "get_lateral_distance_bounds_optimized" ∧ (∀ t ∈ specialTexts, ¬ Occurs t "x") ∧ ∀ t ∈ specialTexts, ¬ Occurs t "y" := by
  refine ⟨.inr ⟨rfl, rfl⟩, fun t ht h => ?_, fun t ht h => ?_⟩
  · have := (by decide +kernel : ∀ t ∈ specialTexts, has t "x" = false) t ht
    rw [(has_iff _ _).2 h] at this; cases this
  · have := (by decide +kernel : ∀ t ∈ specialTexts, has t "y" = false) t ht
    rw [(has_iff _ _).2 h] at this; cases this

/-- Bounds as they are assumed for the map, for a straight lane along the x-axis: the lateral distance is `y`. -/
private def laneCtx : Ctx ℚ :=
  { p := 3, at2 := fun _ _ => 0, F := ⟨fun _ _ => none, fun g _ y => if g = "get_lateral_distance" then some y else none⟩, crown := fun _ _ => .error "none", opt := fun _ _ _ _ => none,
    mapB := fun _ c => match c with | [_, b] => .ok b | _ => .error "TypeError" }

example : ∀ a b lu, laneCtx.mapB "get_lateral_distance_bounds_optimized" [a, b] = .ok lu → ∀ x y v, a.1 ≤ x → x ≤ a.2 → b.1 ≤ y → y ≤ b.2 →
    laneCtx.F.f2 "get_lateral_distance" x y = some v → lu.1 ≤ v ∧ v ≤ lu.2 := by
  intro a b lu h x y v _ _ h3 h4 hv
  have e1 : b = lu := by simpa [laneCtx] using h
  have e2 : y = v := by simpa [laneCtx] using hv
  rw [← e1, ← e2]
  exact ⟨h3, h4⟩

end Verif.Props
