import Verif.Proofs.ParserWrap
import Verif.Props.Angular
import Verif.Props.Span
import Verif.Props.Piecewise

/-!
C67: the bounds that `parse_function` and `parse_function_array` return contain the values of all variables.
C68: results taken from the cache are results for the given function and box.
-/

set_option autoImplicit false
set_option linter.unusedSectionVars false

namespace Verif.Props

open Verif.Spec Verif.Pw Verif.Pars Verif.Ang

/-! ### C67 -/

/-- The full statement: for every function of assignments, and all arguments in the given bounds, the bounds returned contain the
values of all variables at `return`. -/
def C67 (K : Type) [Field K] [LinearOrder K] [FloorRing K] : Prop :=
  ∀ (ctx : Ctx K), CrownSound ctx → OptCorrect ctx.opt → ∀ (pws : List (PFun K)), CallsMean ctx.F pws → (∀ f ∈ pws, GoodPiecewise f) →
    (∀ a b y, ctx.F.f2 "minus_angular" a b = some y → IsWrap ctx.p (a - b) y) →
    ∀ (f : PFun K) (input : Bounds K), (input.map Prod.fst).Nodup → ∀ r, parseFunction (exprBounds ctx pws) f input = .ok r → CoversValues ctx.F f input r.1

section
variable {K : Type} [Field K] [LinearOrder K]

/-- For functions whose assigned expressions are plain, or calls of a listed piecewise function with variables named like its
parameters: the bounds returned contain the values of all variables, for all arguments in the bounds. Missing: expressions with
angular or map functions, see `C67_arctan2_partial` and `C67_factor_violated`. -/
theorem C67_covers_partial [FloorRing K] (ctx : Ctx K) (hc : CrownSound ctx) (ho : OptCorrect ctx.opt) (pws : List (PFun K)) (hm : CallsMean ctx.F pws)
    (hg : ∀ f ∈ pws, GoodPiecewise f) (f : PFun K) (hb : GoodBody pws f.body) (input : Bounds K) (hn : (input.map Prod.fst).Nodup)
    (r : Bounds K × List (Bounds K)) (h : parseFunction (exprBounds ctx pws) f input = .ok r) : CoversValues ctx.F f input r.1 :=
  (parseFunction_spec ctx.F _ f (goodBody_goodFor ctx hc ho pws hm hg f hb) input r h).1 hn

/-- The same with splitting into any number of parts, from an empty cache. -/
theorem C67_splits_partial [FloorRing K] (ctx : Ctx K) (hc : CrownSound ctx) (ho : OptCorrect ctx.opt) (pws : List (PFun K)) (hm : CallsMean ctx.F pws)
    (hg : ∀ f ∈ pws, GoodPiecewise f) (f : PFun K) (hb : GoodBody pws f.body) (hn : f.params.Nodup) (input : List (K × K)) (cache : Bool) (n : Nat)
    (r : ArrayResult K) (h : (parseArray ctx.p (exprBounds ctx pws) f input cache n []).1 = .ok r) : CoversValues ctx.F f (boxDict f.params input) r.bounds :=
  (parseArray_spec ctx.F (fun _ => f) [] (cacheGood_nil _ _) ctx.p _ f rfl hn (goodBody_goodFor ctx hc ho pws hm hg f hb) input cache n).2 r h

end

/-! An example: a context over the rational numbers in which CROWN knows sums of variables and constants. -/

/-- Interval arithmetic for expressions of variables, constants and sums; constants alone are refused. -/
def sumBounds (box : Dict String (ℚ × ℚ)) : PE ℚ → Option (ℚ × ℚ)
  | .name x => Dict.get? box x
  | .const c => some (c, c)
  | .add a b => (sumBounds box a).bind fun x => (sumBounds box b).map fun y => (x.1 + y.1, x.2 + y.2)
  | _ => none

def exCrown (e : PE ℚ) (box : Dict String (ℚ × ℚ)) : Except String (ℚ × ℚ) :=
  if box = [] then .error "NotATensor" else match sumBounds box e with | some b => .ok b | none => .error "unsupported"

theorem sumBounds_sound (F : Funs ℚ) (box : Dict String (ℚ × ℚ)) (env : Env ℚ)
    (hbox : ∀ q ∈ box, ∃ w, Dict.get? env q.1 = some w ∧ q.2.1 ≤ w ∧ w ≤ q.2.2) : ∀ (e : PE ℚ) (lu : ℚ × ℚ) (v : ℚ), sumBounds box e = some lu → evalE F env e = some v →
    lu.1 ≤ v ∧ v ≤ lu.2
  | .name x, lu, v, h, hv => by
    obtain ⟨w, hw, hh⟩ := hbox _ (Dict.mem_of_get? h)
    simp only [evalE] at hv
    rw [hv] at hw; injection hw with hw; subst hw
    exact hh
  | .const c, lu, v, h, hv => by
    injection h with h; injection hv with hv; subst h; subst hv
    exact ⟨le_refl _, le_refl _⟩
  | .add a b, lu, v, h, hv => by
    simp only [sumBounds, Option.bind_eq_some_iff, Option.map_eq_some_iff] at h
    simp only [evalE, Option.bind_eq_some_iff, Option.map_eq_some_iff] at hv
    obtain ⟨x, hx, y, hy, rfl⟩ := h
    obtain ⟨w1, h1, w2, h2, rfl⟩ := hv
    have i1 := sumBounds_sound F box env hbox a x w1 hx h1
    have i2 := sumBounds_sound F box env hbox b y w2 hy h2
    exact ⟨add_le_add i1.1 i2.1, add_le_add i1.2 i2.2⟩
  | .neg _, lu, v, h, hv => by cases h
  | .pos _, lu, v, h, hv => by cases h
  | .sub _ _, lu, v, h, hv => by cases h
  | .mul _ _, lu, v, h, hv => by cases h
  | .div _ _, lu, v, h, hv => by cases h
  | .call1 _ _, lu, v, h, hv => by cases h
  | .call2 _ _ _, lu, v, h, hv => by cases h

/-- `def sign(psi, phi)` of `exSign` and `minus_angular`, with half a turn equal to 1. -/
def exFuns : Funs ℚ := ⟨fun _ _ => none, fun g a b =>
  if g = "sign" then callFn noFuns exSign [a, b] else if g = "minus_angular" then some (wrapAngle 1 (a - b)) else none⟩

noncomputable def exCtx : Ctx ℚ := ⟨1, fun _ _ => 0, exFuns, exCrown, looseOpt, fun _ _ => .error "no map"⟩

theorem exCtx_crown : CrownSound exCtx := by
  intro e box lu h env v _ hbox hv
  change exCrown e box = .ok lu at h
  unfold exCrown at h
  split at h
  · cases h
  · split at h
    · next b hb =>
      injection h with h; subst h
      exact sumBounds_sound exCtx.F box env hbox e b v hb hv
    · cases h

theorem exFuns_sign (a b : ℚ) : exCtx.F.f2 "sign" a b = callFn exCtx.F exSign [a, b] := by
  have : ∀ F : Funs ℚ, callFn F exSign [a, b] = callFn noFuns exSign [a, b] := by
    intro F
    simp [callFn, exSign, execL, exec, evalC, evalChain, evalE]
  rw [this]
  rfl

/-- `def sensor(psi, phi): y = sign(psi, phi); z = y + psi + 1; return z`. -/
def exSensor : PFun ℚ := ⟨"sensor", ["psi", "phi"], [.assign "y" (.call2 "sign" (.name "psi") (.name "phi")),
  .assign "z" (.add (.add (.name "y") (.name "psi")) (.const 1)), .ret (.name "z")]⟩

theorem exSign_good : GoodPiecewise exSign := by
  refine ⟨by decide, [.skip], [], _, _, _, [.neg (.const 1), .const 1, .const 2], by simp, rfl, .step _ _ _ _ _ _ _ ⟨rfl, rfl⟩ (.last _ _ _ _ _ rfl), ?_⟩
  intro e he s hs
  simp only [List.mem_cons, List.not_mem_nil, or_false] at he
  rcases he with rfl | rfl | rfl <;> simp [idents] at hs

theorem not_occurs (t s : String) (h : has t s = false) : ¬ Occurs t s := by
  rw [← has_iff, h]; decide

theorem exSensor_good : GoodBody [exSign] exSensor.body := by
  intro x e hx
  have hsp : ∀ s ∈ ["sign", "psi", "phi", "y"], ∀ t ∈ specialTexts, has t s = false := by decide +kernel
  simp only [exSensor, List.mem_cons, PS.assign.injEq, List.not_mem_nil, or_false, reduceCtorEq] at hx
  rcases hx with ⟨rfl, rfl⟩ | ⟨rfl, rfl⟩
  · right
    refine ⟨fun s hs t ht => not_occurs t s (hsp s ?_ t ht), exSign, by simp, ⟨rfl, rfl⟩, fun g hg _ => by simpa using hg⟩
    simp [idents] at hs ⊢; tauto
  · left
    refine ⟨fun s hs t ht => not_occurs t s (hsp s ?_ t ht), ?_⟩
    · simp [idents] at hs ⊢; tauto
    · intro s hs f hf
      rw [List.mem_singleton.1 hf]
      apply not_occurs
      have : ∀ s ∈ ["y", "psi"], has exSign.name s = false := by decide +kernel
      exact this s (by simpa [idents] using hs)

/-- The hypotheses of `C67_covers_partial` hold for a sensor with a piecewise function and a sum, and the value is not an exception. -/
example : CrownSound exCtx ∧ OptCorrect exCtx.opt ∧ CallsMean exCtx.F [exSign] ∧ (∀ f ∈ [exSign], GoodPiecewise f) ∧ GoodBody [exSign] exSensor.body ∧
    envAtReturn exCtx.F [("psi", 1/4), ("phi", 1)] exSensor.body = some [("psi", 1/4), ("phi", 1), ("y", -1), ("z", 1/4)] := by
  refine ⟨exCtx_crown, looseOpt_correct, ?_, ?_, exSensor_good, ?_⟩
  · intro f hf
    rw [List.mem_singleton.1 hf]
    refine ⟨?_, exFuns_sign⟩
    intro a
    rfl
  · intro f hf; rw [List.mem_singleton.1 hf]; exact exSign_good
  · decide +kernel

/-- And the bounds are computed: `y` in `[-1, 1]`, `z` in `[-2, 5/2]`, for `psi` in `[-2, -1]` or `[0, 1/2]` and `phi = 1`. -/
example : (parseFunction (exprBounds exCtx [exSign]) exSensor [("psi", [(-2, -1), (0, 1/2)]), ("phi", [(1, 1)])]).map Prod.fst =
    .ok [("psi", [(-2, -1), (0, 1/2)]), ("phi", [(1, 1)]), ("y", [(-1, 1)]), ("z", [(-2, 5/2)])] := by
  have hb : ∀ (e : PE ℚ) (c : ℚ), NoSpecial e → names e = [] → evalE exFuns [] e = some c → ∀ b, branchBounds exCtx e b = .ok [(c, c)] := by
    intro e c he hn hv b
    unfold branchBounds
    rw [dispatch_plain exCtx _ [] _ e b ⟨he, by simp⟩]
    unfold handleCrown
    simp only [hn, List.filter_nil, List.dedup_nil]
    have hv' : evalE exCtx.F [] e = some c := hv
    change crownLoop exCtx e [] [[]] [] = _
    rw [crownLoop]
    have : exCtx.crown e (zipDict [] []) = .error "NotATensor" := rfl
    simp only [this, if_true, hv']
  have h1 : exprBounds exCtx [exSign] (.call2 "sign" (.name "psi") (.name "phi")) [("psi", [(-2, -1), (0, 1/2)]), ("phi", [(1, 1)])] = .ok [(-1, 1)] := by
    obtain ⟨hs, _⟩ : PwCall [exSign] (.call2 "sign" (.name "psi") (.name "phi")) := by
      rcases exSensor_good "y" (.call2 "sign" (.name "psi") (.name "phi")) (by simp [exSensor]) with h | h
      · exact absurd (List.infix_refl _) (h.2 "sign" (by simp [idents]) exSign (by simp))
      · exact h
    have hfind : [exSign].find? (fun f => mentions f.name (.call2 "sign" (.name "psi") (.name "phi") : PE ℚ)) = some exSign := by
      have : mentions exSign.name (.call2 "sign" (.name "psi") (.name "phi") : PE ℚ) = true := (mentions_iff _ _).2 ⟨"sign", by simp [idents], List.infix_refl _⟩
      simp [this]
    unfold exprBounds dispatch
    simp only [mapIds_alias _ hs, find_angular_none _ hs, hfind]
    exact exSign_bounds (branchBounds exCtx) (hb (.const 1) 1 (by intro s hs; simp [idents] at hs) rfl rfl)
      (hb (.neg (.const 1)) (-1) (by intro s hs; simp [idents] at hs) rfl rfl) _ rfl
  have h2 : exprBounds exCtx [exSign] (.add (.add (.name "y") (.name "psi")) (.const 1)) [("psi", [(-2, -1), (0, 1/2)]), ("phi", [(1, 1)]), ("y", [(-1, 1)])] =
      .ok [(-2, 5/2)] := by
    have hp : Plain [exSign] (.add (.add (.name "y") (.name "psi")) (.const 1)) := by
      rcases exSensor_good "z" (.add (.add (.name "y") (.name "psi")) (.const 1)) (by simp [exSensor]) with h | h
      · exact h
      · exact absurd h.2.choose_spec.2.1 (by simp [OwnCall])
    unfold exprBounds
    rw [dispatch_plain _ _ _ _ _ _ hp]
    decide +kernel
  simp only [parseFunction, parseLoop, exSensor, h1, Except.bind]
  have hset : Dict.set [("psi", [((-2 : ℚ), (-1 : ℚ)), (0, 1/2)]), ("phi", [(1, 1)])] "y" [(-1, 1)] = [("psi", [(-2, -1), (0, 1/2)]), ("phi", [(1, 1)]), ("y", [(-1, 1)])] := by
    decide +kernel
  rw [hset, h2]
  decide +kernel

/-! ### Angular functions -/

theorem spanOf_sides {K : Type} [Field K] [LinearOrder K] [IsStrictOrderedRing K] [FloorRing K] (p : K) (hp : 0 < p) (A : List K) (hA : A ≠ [])
    (h : (spanOf p A).2 < (spanOf p A).1) : 0 ≤ (spanOf p A).1 ∧ (spanOf p A).1 ≤ p ∧ (spanOf p A).2 ≤ 0 ∧ -p ≤ (spanOf p A).2 := by
  have hle : ∀ l : List K, l ≠ [] → minList l ≤ maxList l := fun l hl => Verif.Ang.minList_le l _ (maxList_mem l hl)
  unfold spanOf at h ⊢
  dsimp only at h ⊢
  split at h
  · exact absurd h (not_lt.2 (hle A hA))
  next hno =>
  rw [if_neg hno]
  obtain ⟨M, hM⟩ : ∃ M, M = A.map fun a => fmod a (2 * p) := ⟨_, rfl⟩
  rw [← hM] at h ⊢
  have hMne : M ≠ [] := by rw [hM]; simpa using hA
  have hr : ∀ x ∈ M, 0 ≤ x ∧ x < 2 * p := by
    intro x hx
    rw [hM] at hx
    obtain ⟨a, _, rfl⟩ := List.mem_map.1 hx
    exact fmod_range a (2 * p) (by linarith)
  have h1 := hr _ (minList_mem M hMne)
  have h2 := hr _ (maxList_mem M hMne)
  have h3 := hle M hMne
  dsimp only at h ⊢
  split_ifs at h ⊢ <;> first | (exfalso; linarith) | (refine ⟨?_, ?_, ?_, ?_⟩ <;> linarith)

theorem alias_arctan2 : aliasName "arctan2" = "angular_span_rect_parser" := by decide +kernel

open Real in
/-- `a = arctan2(y, x)` with one interval for each of `y` and `x`, when the box does not contain the origin: the bounds contain the value. -/
theorem C67_arctan2_partial (ctx : Ctx ℝ) (hp : ctx.p = π) (hat : ctx.at2 = arctan2) (hF : ∀ y x, ctx.F.f2 "arctan2" y x = some (arctan2 y x))
    (pws : List (PFun ℝ)) (yn xn : String) (hyn : ∀ t ∈ specialTexts, ¬ Occurs t yn) (hxn : ∀ t ∈ specialTexts, ¬ Occurs t xn) (cur : Bounds ℝ)
    (y1 y2 x1 x2 : ℝ) (hy : Dict.get? cur yn = some [(y1, y2)]) (hx : Dict.get? cur xn = some [(x1, x2)])
    (horigin : ¬ (x1 ≤ 0 ∧ 0 ≤ x2 ∧ y1 ≤ 0 ∧ 0 ≤ y2)) (l : List (ℝ × ℝ))
    (h : exprBounds ctx pws (.call2 "arctan2" (.name yn) (.name xn)) cur = .ok l) (env : Env ℝ) (v : ℝ) (hin : EnvIn env cur)
    (hv : evalE ctx.F env (.call2 "arctan2" (.name yn) (.name xn)) = some v) : InSome l v := by
  simp only [evalE, Option.bind_eq_some_iff] at hv
  obtain ⟨y, hyv, x, hxv, hv⟩ := hv
  rw [hF] at hv
  injection hv with hv; subst hv
  obtain ⟨y', hy', iv, hiv, hyb⟩ := hin.inside _ (Dict.mem_of_get? hy)
  dsimp only at hy' hiv
  rw [hyv] at hy'; injection hy' with hy'; subst hy'
  rw [List.mem_singleton.1 hiv] at hyb
  obtain ⟨x', hx', iv', hiv', hxb⟩ := hin.inside _ (Dict.mem_of_get? hx)
  dsimp only at hx' hiv'
  rw [hxv] at hx'; injection hx' with hx'; subst hx'
  rw [List.mem_singleton.1 hiv'] at hxb
  dsimp only at hyb hxb
  have hky : yn ∈ Dict.keys cur := hin.known _ _ hyv
  have hkx : xn ∈ Dict.keys cur := hin.known _ _ hxv
  have hmap : mapIds aliasName (.call2 "arctan2" (.name yn) (.name xn) : PE ℝ) = .call2 "angular_span_rect_parser" (.name yn) (.name xn) := by
    simp only [mapIds, alias_arctan2, aliasName_id yn hyn, aliasName_id xn hxn]
  have hfind : angularFunctions.find? (fun f => mentions f (.call2 "angular_span_rect_parser" (.name yn) (.name xn) : PE ℝ)) = some "angular_span_rect_parser" := by
    have : mentions "angular_span_rect_parser" (.call2 "angular_span_rect_parser" (.name yn) (.name xn) : PE ℝ) = true :=
      (mentions_iff _ _).2 ⟨_, by simp [idents], List.infix_refl _⟩
    simp [angularFunctions, this]
  have hl : combineBounds π [spanRectParser π arctan2 (y1, y2) (x1, x2)] = .ok l := by
    unfold exprBounds dispatch at h
    simp only [hmap, hfind, firstArgs_call2 _ _ _ _ hky hkx] at h
    unfold handleAngular lookupAll at h
    simp only [List.mapM_cons, List.mapM_nil, hy, hx, hp] at h
    rw [← hat, ← hp, ← h, ← hp]
    rfl
  have hne : x ≠ 0 ∨ y ≠ 0 := by
    by_contra hc
    rw [not_or, not_not, not_not] at hc
    exact horigin ⟨by rw [← hc.1]; exact hxb.1, by rw [← hc.1]; exact hxb.2, by rw [← hc.2]; exact hyb.1, by rw [← hc.2]; exact hyb.2⟩
  have hhas := C65_parser_partial x1 x2 y1 y2 (fun hc => horigin ⟨hc.1.le, hc.2.1.le, hc.2.2.1.le, hc.2.2.2.symm.le⟩) x y _ hxb.1 hxb.2 hyb.1 hyb.2 (direction_arctan2 x y hne)
  refine C46_covers_partial π _ l hl ?_ _ _ (List.mem_singleton_self _) hhas
  obtain ⟨s, hs⟩ : ∃ s, s = spanBetween π arctan2 ⟨0, 0, 0, 0⟩ ⟨x1, x2, y1, y2⟩ := ⟨_, rfl⟩
  by_cases hle : s.1 ≤ s.2
  · right; right; left
    refine ⟨s.1, ?_⟩
    intro b hb iv hiv
    rw [List.mem_singleton.1 hb] at hiv
    unfold spanRectParser at hiv
    rw [← hs] at hiv
    dsimp only at hiv
    rw [if_pos hle] at hiv
    simp only [ABound.parts, if_neg (not_lt.2 hle), List.mem_singleton] at hiv
    rw [hiv]
    exact ⟨le_refl _, hle⟩
  · right; right; right
    have hlt := not_le.1 hle
    have hpi := Real.pi_pos
    have hsides : 0 ≤ s.1 ∧ s.1 ≤ π ∧ s.2 ≤ 0 ∧ -π ≤ s.2 := by
      unfold spanBetween at hs
      split at hs
      · rw [hs] at hlt; dsimp only at hlt; linarith
      · rw [hs] at hlt ⊢
        refine spanOf_sides π hpi _ ?_ hlt
        simp [cornerVecs, RectXY.corners]
    refine ⟨π, -π, ?_⟩
    intro b hb iv hiv
    rw [List.mem_singleton.1 hb] at hiv
    unfold spanRectParser at hiv
    rw [← hs] at hiv
    dsimp only at hiv
    rw [if_neg hle] at hiv
    simp only [ABound.parts, List.mem_cons, List.not_mem_nil, or_false] at hiv
    rcases hiv with rfl | rfl
    · left; exact ⟨⟨hsides.1, hpi⟩, hsides.2.1, le_refl _⟩
    · right; exact ⟨⟨by linarith, hsides.2.2.1⟩, le_refl _, hsides.2.2.2⟩

/-- The hypotheses of `C67_arctan2_partial` on the box hold for `y` in `[-1, 1]` and `x` in `[-3, -2]`, where the bounds pass through half a turn. -/
example : ¬ ((-3 : ℝ) ≤ 0 ∧ (0 : ℝ) ≤ -2 ∧ (-1 : ℝ) ≤ 0 ∧ (0 : ℝ) ≤ 1) ∧ (∀ t ∈ specialTexts, ¬ Occurs t "y") ∧ ∀ t ∈ specialTexts, ¬ Occurs t "x" := by
  refine ⟨by norm_num, fun t ht => not_occurs t _ ?_, fun t ht => not_occurs t _ ?_⟩
  · exact (by decide +kernel : ∀ t ∈ specialTexts, has t "y" = false) t ht
  · exact (by decide +kernel : ∀ t ∈ specialTexts, has t "x" = false) t ht

/-- Only the call of an angular function is seen, not the expression around it: for `w = 2 * minus_angular(a, b)` the bounds are those of `minus_angular(a, b)`. -/
theorem C67_factor_violated : ∃ (f : PFun ℚ) (input : Bounds ℚ) (r : Bounds ℚ × List (Bounds ℚ)) (env env' : Env ℚ) (v : ℚ) (l : List (ℚ × ℚ)),
    (input.map Prod.fst).Nodup ∧ parseFunction (exprBounds exCtx []) f input = .ok r ∧ EnvIn env input ∧ envAtReturn exCtx.F env f.body = some env' ∧
    Dict.get? env' "w" = some v ∧ Dict.get? r.1 "w" = some l ∧ ¬ InSome l v := by
  refine ⟨⟨"f", ["a", "b"], [.assign "w" (.mul (.const 2) (.call2 "minus_angular" (.name "a") (.name "b")))]⟩, [("a", [(1/4, 1/4)]), ("b", [(0, 0)])],
    ([("a", [(1/4, 1/4)]), ("b", [(0, 0)]), ("w", [(1/4, 1/4)])], [[("a", [(1/4, 1/4)]), ("b", [(0, 0)])], [("a", [(1/4, 1/4)]), ("b", [(0, 0)]), ("w", [(1/4, 1/4)])]]),
    [("a", 1/4), ("b", 0)], [("a", 1/4), ("b", 0), ("w", 1/2)], 1/2, [(1/4, 1/4)], by decide, by decide +kernel, ⟨?_, ?_⟩, by decide +kernel, by decide +kernel, by decide +kernel, ?_⟩
  · intro p hp
    simp only [List.mem_cons, List.not_mem_nil, or_false] at hp
    rcases hp with rfl | rfl
    · exact ⟨1/4, by decide +kernel, _, List.mem_singleton_self _, le_refl _, le_refl _⟩
    · exact ⟨0, by decide +kernel, _, List.mem_singleton_self _, le_refl _, le_refl _⟩
  · intro n w hw
    exact List.mem_map_of_mem (f := Prod.fst) (Dict.mem_of_get? hw) |> fun h => by simpa using h
  · rintro ⟨iv, hiv, h1, h2⟩
    rw [List.mem_singleton.1 hiv] at h2
    norm_num at h2

/-- The full statement is false. -/
theorem C67_violated : ¬ C67 ℚ := by
  intro h
  obtain ⟨f, input, r, env, env', v, l, h0, h1, h2, h3, h4, h5, h6⟩ := C67_factor_violated
  have hcov := h exCtx exCtx_crown looseOpt_correct [] (by intro f hf; cases hf) (by intro f hf; cases hf) (by
    intro a b y hy
    have : wrapAngle (1 : ℚ) (a - b) = y := by
      have hh : exCtx.F.f2 "minus_angular" a b = some (wrapAngle (1 : ℚ) (a - b)) := rfl
      rw [hh] at hy; injection hy
    rw [← this]
    exact wrapAngle_isWrap (1 : ℚ) (a - b) one_pos) f input h0 r h1 env env' h2 h3
  obtain ⟨w, hw, hin⟩ := hcov.inside _ (Dict.mem_of_get? h5)
  dsimp only at hw hin
  rw [h4] at hw; injection hw with hw; subst hw
  exact h6 hin

/-! ### C68 -/

/-- Calls of the two functions of the interface. -/
inductive PCall (K : Type) where
  | single (eb : EB K) (f : PFun K) (input : Bounds K) (cache : Bool)
  | array (p : K) (eb : EB K) (f : PFun K) (input : List (K × K)) (cache : Bool) (n : Nat)

namespace PCall
variable {K : Type} [Field K] [LinearOrder K]

def fn : PCall K → PFun K
  | single _ f _ _ => f
  | array _ _ f _ _ _ => f

def bounds : PCall K → EB K
  | single eb _ _ _ => eb
  | array _ eb _ _ _ _ => eb

/-- The arguments over which the result is meant. -/
def box : PCall K → Bounds K
  | single _ _ input _ => input
  | array _ _ f input _ _ => boxDict f.params input

/-- The bounds returned by a call, and the cache afterwards. -/
def run (st : Cache K) : PCall K → Except String (Bounds K) × Cache K
  | single eb f input cache => ((parseCached eb f input cache false st).1.map Prod.fst, (parseCached eb f input cache false st).2)
  | array p eb f input cache n => ((parseArray p eb f input cache n st).1.map ArrayResult.bounds, (parseArray p eb f input cache n st).2)

/-- The results of a sequence of calls. -/
def runAll (st : Cache K) : List (PCall K) → List (PCall K × Except String (Bounds K))
  | [] => []
  | c :: cs => (c, (c.run st).1) :: runAll (c.run st).2 cs

end PCall

section
variable {K : Type} [Field K] [LinearOrder K]

theorem run_spec (F : Funs K) (defs : String → PFun K) (st : Cache K) (hst : CacheGood F defs st) (c : PCall K) (hd : defs c.fn.name = c.fn)
    (hn : c.fn.params.Nodup) (hk : (c.box.map Prod.fst).Nodup) (hg : GoodFor F c.bounds c.fn) :
    CacheGood F defs (c.run st).2 ∧ ∀ r, (c.run st).1 = .ok r → CoversValues F c.fn c.box r := by
  cases c with
  | single eb f input cache =>
    obtain ⟨h1, h2⟩ := parseCached_spec F defs st hst eb f hd hg input cache false
    refine ⟨h1, ?_⟩
    intro r h
    obtain ⟨x, hx, rfl⟩ := (map_ok_iff _ _ _).1 h
    exact (h2 x hx).1 hk
  | array p eb f input cache n =>
    obtain ⟨h1, h2⟩ := parseArray_spec F defs st hst p eb f hd hn hg input cache n
    refine ⟨h1, ?_⟩
    intro r h
    obtain ⟨x, hx, rfl⟩ := (map_ok_iff _ _ _).1 h
    exact h2 x hx

/-- Whatever was computed before, with whatever numbers of splits, piecewise functions and cache settings: as long as calls with the
same function name analyse the same function, every result contains the values of the variables for the arguments of its own
call. Missing: functions with the same name, see `C68_name_violated`. -/
theorem C68_covers_partial (F : Funs K) (calls : List (PCall K)) (hname : ∀ c ∈ calls, ∀ d ∈ calls, c.fn.name = d.fn.name → c.fn = d.fn)
    (hn : ∀ c ∈ calls, c.fn.params.Nodup) (hk : ∀ c ∈ calls, (c.box.map Prod.fst).Nodup) (hg : ∀ c ∈ calls, GoodFor F c.bounds c.fn)
    (c : PCall K) (r : Bounds K) (h : (c, .ok r) ∈ PCall.runAll [] calls) : CoversValues F c.fn c.box r := by
  classical
  obtain ⟨defs, hdefs⟩ : ∃ defs : String → PFun K, ∀ c ∈ calls, defs c.fn.name = c.fn := by
    refine ⟨fun n => if h : ∃ c ∈ calls, c.fn.name = n then h.choose.fn else ⟨n, [], []⟩, ?_⟩
    intro c hc
    have hex : ∃ d ∈ calls, d.fn.name = c.fn.name := ⟨c, hc, rfl⟩
    dsimp only
    rw [dif_pos hex]
    exact hname _ hex.choose_spec.1 c hc hex.choose_spec.2
  have key : ∀ (cs : List (PCall K)) (st : Cache K), (∀ d ∈ cs, d ∈ calls) → CacheGood F defs st → (c, .ok r) ∈ PCall.runAll st cs → CoversValues F c.fn c.box r := by
    intro cs
    induction cs with
    | nil => intro st _ _ h; simp [PCall.runAll] at h
    | cons d cs ih =>
      intro st hsub hst h
      have hd := hsub d (by simp)
      obtain ⟨h1, h2⟩ := run_spec F defs st hst d (hdefs d hd) (hn d hd) (hk d hd) (hg d hd)
      rw [PCall.runAll] at h
      rcases List.mem_cons.1 h with h | h
      · injection h with e1 e2
        subst e1
        exact h2 r e2.symm
      · exact ih _ (fun e he => hsub e (by simp [he])) h1 h
  exact key calls [] (fun d hd => hd) (cacheGood_nil F defs) h

/-- If calls of `parse_function` with the same function name also compute bounds in the same way, the cache changes no result. -/
theorem C68_same_result_partial (calls : List (PCall K)) (hsingle : ∀ c ∈ calls, ∃ eb f input cache, c = .single eb f input cache)
    (hname : ∀ c ∈ calls, ∀ d ∈ calls, c.fn.name = d.fn.name → c.fn = d.fn ∧ c.bounds = d.bounds)
    (c : PCall K) (r : Except String (Bounds K)) (h : (c, r) ∈ PCall.runAll [] calls) : r = (parseFunction c.bounds c.fn c.box).map Prod.fst := by
  have key : ∀ (cs : List (PCall K)) (st : Cache K), (∀ d ∈ cs, d ∈ calls) →
      (∀ key x, Dict.get? st key = some x → ∃ d ∈ calls, d.fn.name = key.2 ∧ (parseFunction d.bounds d.fn key.1).map Prod.fst = .ok x.1) →
      (c, r) ∈ PCall.runAll st cs → r = (parseFunction c.bounds c.fn c.box).map Prod.fst := by
    intro cs
    induction cs with
    | nil => intro st _ _ h; simp [PCall.runAll] at h
    | cons d cs ih =>
      intro st hsub hst h
      have hd := hsub d (by simp)
      obtain ⟨eb, f, input, cache, rfl⟩ := hsingle d hd
      have hrun : (PCall.run st (.single eb f input cache)).1 = (parseFunction eb f input).map Prod.fst ∧
          ∀ key x, Dict.get? (PCall.run st (.single eb f input cache)).2 key = some x →
            ∃ d ∈ calls, d.fn.name = key.2 ∧ (parseFunction d.bounds d.fn key.1).map Prod.fst = .ok x.1 := by
        unfold PCall.run parseCached
        dsimp only
        split
        · next x hx =>
          refine ⟨?_, hst⟩
          obtain ⟨d', hd', hdn, he⟩ := hst _ _ hx
          obtain ⟨e1, e2⟩ := hname d' hd' _ hd hdn
          rw [e1, e2] at he
          exact he.symm
        · split
          · next s hs => exact ⟨by rw [hs]; rfl, hst⟩
          · next x hx =>
            refine ⟨by rw [hx]; rfl, ?_⟩
            dsimp only
            split
            · intro key y hy
              rw [Dict.get?_set] at hy
              split at hy
              · next e =>
                subst e
                injection hy with hy; subst hy
                exact ⟨_, hd, rfl, by simp only [PCall.bounds, PCall.fn, hx]; rfl⟩
              · exact hst key y hy
            · exact hst
      rw [PCall.runAll] at h
      rcases List.mem_cons.1 h with h | h
      · injection h with e1 e2
        rw [e2, hrun.1, e1]
        rfl
      · exact ih _ (fun e he => hsub e (by simp [he])) hrun.2 h
  exact key calls [] (fun d hd => hd) (by intro k x hx; cases hx) h

end

/-- `def sensor(x): y = c`. -/
def exConst (c : ℚ) : PFun ℚ := ⟨"sensor", ["x"], [.assign "y" (.const c), .ret (.name "y")]⟩

/-- The hypotheses of `C68_covers_partial` hold for calls with and without splitting, with and without writing the cache. -/
example : (∀ c ∈ [PCall.single (exprBounds exCtx [exSign]) exSensor [("psi", [(-2, -1), (0, 1/2)]), ("phi", [(1, 1)])] true,
      .array 1 (exprBounds exCtx [exSign]) exSensor [(0, 1/2), (1, 1)] false 3], c.fn = exSensor ∧ c.fn.params.Nodup ∧ (c.box.map Prod.fst).Nodup ∧ GoodFor exCtx.F c.bounds c.fn) := by
  have hgood : GoodFor exCtx.F (exprBounds exCtx [exSign]) exSensor := by
    refine goodBody_goodFor exCtx exCtx_crown looseOpt_correct [exSign] ?_ ?_ exSensor exSensor_good
    · intro f hf
      rw [List.mem_singleton.1 hf]
      exact ⟨fun a => rfl, exFuns_sign⟩
    · intro f hf; rw [List.mem_singleton.1 hf]; exact exSign_good
  intro c hc
  simp only [List.mem_cons, List.not_mem_nil, or_false] at hc
  rcases hc with rfl | rfl
  · exact ⟨rfl, by decide, by decide +kernel, hgood⟩
  · exact ⟨rfl, by decide, by decide +kernel, hgood⟩

/-- Functions are told apart by name only: after the analysis of one function `sensor`, another function `sensor` gets its bounds. -/
theorem C68_name_violated : ∃ (f g : PFun ℚ) (input : Bounds ℚ) (r : Bounds ℚ) (env env' : Env ℚ) (v : ℚ) (l : List (ℚ × ℚ)),
    PCall.runAll [] [.single (exprBounds exCtx []) f input true, .single (exprBounds exCtx []) g input false] =
      [(.single (exprBounds exCtx []) f input true, .ok r), (.single (exprBounds exCtx []) g input false, .ok r)] ∧
    GoodFor exCtx.F (exprBounds exCtx []) f ∧ GoodFor exCtx.F (exprBounds exCtx []) g ∧
    EnvIn env input ∧ envAtReturn exCtx.F env g.body = some env' ∧ Dict.get? env' "y" = some v ∧ Dict.get? r "y" = some l ∧ ¬ InSome l v := by
  have hgood : ∀ c, GoodFor exCtx.F (exprBounds exCtx []) (exConst c) := by
    intro c
    refine goodBody_goodFor exCtx exCtx_crown looseOpt_correct [] (by intro f hf; cases hf) (by intro f hf; cases hf) _ ?_
    intro x e hx
    simp only [exConst, List.mem_cons, PS.assign.injEq, List.not_mem_nil, or_false, reduceCtorEq] at hx
    obtain ⟨rfl, rfl⟩ := hx
    exact Or.inl ⟨by intro s hs; simp [idents] at hs, by simp⟩
  refine ⟨exConst 1, exConst 2, [("x", [(0, 1)])], [("x", [(0, 1)]), ("y", [(1, 1)])], [("x", 0)], [("x", 0), ("y", 2)], 2, [(1, 1)], ?_, hgood 1, hgood 2,
    ⟨?_, ?_⟩, by decide +kernel, by decide +kernel, by decide +kernel, ?_⟩
  · have h1 : PCall.run [] (.single (exprBounds exCtx []) (exConst 1) [("x", [(0, 1)])] true) =
        (.ok [("x", [(0, 1)]), ("y", [(1, 1)])], [(([("x", [(0, 1)])], "sensor"), ([("x", [(0, 1)]), ("y", [(1, 1)])], some [[("x", [(0, 1)])], [("x", [(0, 1)]), ("y", [(1, 1)])]]))]) := by decide +kernel
    have h2 : (PCall.run [(([("x", [(0, 1)])], "sensor"), ([("x", [(0, 1)]), ("y", [(1, 1)])], some [[("x", [(0, 1)])], [("x", [(0, 1)]), ("y", [(1, 1)])]]))] (.single (exprBounds exCtx []) (exConst 2) [("x", [(0, 1)])] false)).1 =
        .ok [("x", [(0, 1)]), ("y", [(1, 1)])] := by decide +kernel
    simp only [PCall.runAll, h1, h2]
  · intro p hp
    rw [List.mem_singleton.1 hp]
    exact ⟨0, by decide +kernel, _, List.mem_singleton_self _, le_refl _, zero_le_one⟩
  · intro n w hw
    have := List.mem_map_of_mem (f := Prod.fst) (Dict.mem_of_get? hw)
    simpa using this
  · rintro ⟨iv, hiv, h1, h2⟩
    rw [List.mem_singleton.1 hiv] at h2
    norm_num at h2

/-- The form of the result depends on the cache: `parse_function_array` with one split returns the bounds together with the bounds
of the splits the first time and the bounds alone the second time. -/
theorem C68_shape_violated : ∃ (f : PFun ℚ) (input : List (ℚ × ℚ)) (st : Cache ℚ) (b : Bounds ℚ) (l : Option (List (Bounds ℚ))),
    parseArray 1 (exprBounds exCtx []) f input true 1 [] = (.ok (.pair b l), st) ∧ (parseArray 1 (exprBounds exCtx []) f input true 1 st).1 = .ok (.only b) := by
  refine ⟨exConst 1, [(0, 1)], [(([("x", [(0, 1)])], "sensor"), ([("x", [(0, 1)]), ("y", [(1, 1)])], some [[("x", [(0, 1)])], [("x", [(0, 1)]), ("y", [(1, 1)])]]))],
    [("x", [(0, 1)]), ("y", [(1, 1)])], some [[("x", [(0, 1)])], [("x", [(0, 1)]), ("y", [(1, 1)])]], Prod.ext ?_ ?_, ?_⟩ <;> decide +kernel


end Verif.Props
