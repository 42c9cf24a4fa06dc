import Verif.Props.ParserWrap
import Verif.Spec.Mergeable

/-! C67 for variables whose bounds consist of several intervals: angular functions, and splits. -/

set_option autoImplicit false
set_option linter.unusedSectionVars false

namespace Verif.Props

open Verif.Spec Verif.Pw Verif.Pars Verif.Ang

section
variable {K : Type} [Field K] [LinearOrder K] [IsStrictOrderedRing K] [FloorRing K]

seal angCall combineBounds handleAngular in
/-- The two angular functions, by the names they have in sensor functions. -/
theorem angular_lists (ctx : Ctx K) (pws : List (PFun K)) (fn g : String) (hfn : aliasName fn = g) (hg : g ∈ angularFunctions)
    (an bn : String) (han : ∀ t ∈ specialTexts, ¬ Occurs t an) (hbn : ∀ t ∈ specialTexts, ¬ Occurs t bn) (cur : Bounds K)
    (as bs : List (K × K)) (ha : Dict.get? cur an = some as) (hb : Dict.get? cur bn = some bs) (l : List (K × K))
    (h : exprBounds ctx pws (.call2 fn (.name an) (.name bn)) cur = .ok l) :
    ∃ out, (product [as, bs]).mapM (angCall ctx g) = .ok out ∧ combineBounds ctx.p out = .ok l := by
  have hka : an ∈ Dict.keys cur := List.mem_map_of_mem (f := Prod.fst) (Dict.mem_of_get? ha)
  have hkb : bn ∈ Dict.keys cur := List.mem_map_of_mem (f := Prod.fst) (Dict.mem_of_get? hb)
  have hmap : mapIds aliasName (.call2 fn (.name an) (.name bn) : PE K) = .call2 g (.name an) (.name bn) := by
    simp only [mapIds, hfn, aliasName_id an han, aliasName_id bn hbn]
  have hm : ∀ t ∈ angularFunctions, mentions t (.call2 g (.name an) (.name bn) : PE K) = has t g := by
    intro t ht
    have hts : t ∈ specialTexts := by
      have : ∀ t ∈ angularFunctions, t ∈ specialTexts := by decide +kernel
      exact this t ht
    have h1 : has t an = false := by rw [← Bool.not_eq_true, has_iff]; exact han t hts
    have h2 : has t bn = false := by rw [← Bool.not_eq_true, has_iff]; exact hbn t hts
    simp [mentions, idents, h1, h2]
  have hfind : angularFunctions.find? (fun f => mentions f (.call2 g (.name an) (.name bn) : PE K)) = some g := by
    have e : angularFunctions.find? (fun f => mentions f (.call2 g (.name an) (.name bn) : PE K)) = angularFunctions.find? (fun f => has f g) := by
      have : ∀ (l : List String) (p q : String → Bool), (∀ t ∈ l, p t = q t) → l.find? p = l.find? q := by
        intro l p q
        induction l with
        | nil => intro _; rfl
        | cons x l ih =>
          intro hpq
          rw [List.find?_cons, List.find?_cons, hpq x (by simp), ih (fun t ht => hpq t (by simp [ht]))]
      exact this _ _ _ hm
    rw [e]
    have : ∀ g ∈ angularFunctions, angularFunctions.find? (fun f => has f g) = some g := by decide +kernel
    exact this g hg
  unfold exprBounds dispatch at h
  simp only [hmap, hfind, firstArgs_call2 _ _ _ _ hka hkb] at h
  unfold handleAngular at h
  obtain ⟨bl, hbl, h1⟩ := (bind_ok_iff _ _ _).1 h
  obtain ⟨out, hout, h2⟩ := (bind_ok_iff _ _ _).1 h1
  have hbl' : lookupAll cur [an, bn] = .ok [as, bs] := by
    unfold lookupAll
    simp only [List.mapM_cons, List.mapM_nil, ha, hb]
    rfl
  rw [hbl'] at hbl
  injection hbl with hbl; subst hbl
  exact ⟨out, hout, h2⟩

theorem mem_product_two (as bs : List (K × K)) (i j : K × K) (hi : i ∈ as) (hj : j ∈ bs) : [i, j] ∈ product [as, bs] :=
  (mem_product _ _).2 (.cons hi (.cons hj .nil))

theorem product_two (as bs : List (K × K)) (c : List (K × K)) (h : c ∈ product [as, bs]) : ∃ i ∈ as, ∃ j ∈ bs, c = [i, j] := by
  have h' := (mem_product _ _).1 h
  match c, h' with
  | [i, j], .cons hi (.cons hj .nil) => exact ⟨i, hi, j, hj, rfl⟩

theorem angCall_span (ctx : Ctx K) (f : String) (hf : f = "angular_span_rect_parser") (i j : K × K) (r : ABound K) (h : angCall ctx f [i, j] = .ok r) :
    r = spanRectParser ctx.p ctx.at2 i j := by
  simp only [angCall, if_pos hf, Except.ok.injEq] at h
  exact h.symm

theorem angCall_diff (ctx : Ctx K) (f : String) (hf : ¬ f = "angular_span_rect_parser") (i j : K × K) (r : ABound K) (h : angCall ctx f [i, j] = .ok r) :
    r = angDiff ctx.p i j := by
  simp only [angCall, if_neg hf, Except.ok.injEq] at h
  exact h.symm

theorem alias_minus : aliasName "minus_angular" = "angular_bounds_diff_correct" := by decide +kernel

/-- **C67 (partial).** `w = minus_angular(a, b)`, where the bounds of `a` and of `b` consist of any number of intervals of angles: the bounds of
`w` contain the value, if every pair of intervals meets the condition of `C45_diff_partial` and the differences of all pairs can be merged without loss.
Missing: other pairs of intervals (`C45_diff_violated`) and other arrangements of the differences (`C46_straddle_violated`). -/
theorem C67_minus_partial (ctx : Ctx K) (hp : 0 < ctx.p) (hF : ∀ a b y, ctx.F.f2 "minus_angular" a b = some y → IsWrap ctx.p (a - b) y)
    (pws : List (PFun K)) (an bn : String) (han : ∀ t ∈ specialTexts, ¬ Occurs t an) (hbn : ∀ t ∈ specialTexts, ¬ Occurs t bn)
    (cur : Bounds K) (as bs : List (K × K)) (ha : Dict.get? cur an = some as) (hb : Dict.get? cur bn = some bs)
    (has : ∀ i ∈ as, -ctx.p ≤ i.1 ∧ i.1 ≤ i.2 ∧ i.2 ≤ ctx.p) (hbs : ∀ j ∈ bs, -ctx.p ≤ j.1 ∧ j.1 ≤ j.2 ∧ j.2 ≤ ctx.p)
    (hw : ∀ i ∈ as, ∀ j ∈ bs, (i.1 = -ctx.p ∧ i.2 = ctx.p) ∨ (j.1 = -ctx.p ∧ j.2 = ctx.p) ∨ (i.2 - i.1) + (j.2 - j.1) < 2 * ctx.p ∨
      i.1 - j.2 ≤ -ctx.p ∨ 0 ≤ i.1 - j.2)
    (hmerge : Mergeable ctx.p (as.flatMap fun i => bs.map fun j => angDiff ctx.p i j))
    (l : List (K × K)) (h : exprBounds ctx pws (.call2 "minus_angular" (.name an) (.name bn)) cur = .ok l) (env : Env K) (v : K)
    (hin : EnvIn env cur) (hv : evalE ctx.F env (.call2 "minus_angular" (.name an) (.name bn)) = some v) : InSome l v := by
  have hmem : "angular_bounds_diff_correct" ∈ angularFunctions := by decide +kernel
  have hne : ¬ "angular_bounds_diff_correct" = "angular_span_rect_parser" := by decide +kernel
  obtain ⟨out, hout, hl⟩ := angular_lists ctx pws "minus_angular" "angular_bounds_diff_correct" alias_minus hmem an bn han hbn cur as bs ha hb l h
  have hf := (mapM_ok_iff _ _ _).1 hout
  have hcall : ∀ i j r, angCall ctx "angular_bounds_diff_correct" [i, j] = .ok r → r = angDiff ctx.p i j := by
    intro i j r hr
    exact angCall_diff ctx _ hne i j r hr
  simp only [evalE, Option.bind_eq_some_iff] at hv
  obtain ⟨x, hx, y, hy, hv⟩ := hv
  obtain ⟨x', hx', i, hi, hxi⟩ := hin.inside _ (Dict.mem_of_get? ha)
  dsimp only at hx' hi
  rw [hx] at hx'; injection hx' with hx'; subst hx'
  obtain ⟨y', hy', j, hj, hyj⟩ := hin.inside _ (Dict.mem_of_get? hb)
  dsimp only at hy' hj
  rw [hy] at hy'; injection hy' with hy'; subst hy'
  obtain ⟨b, hbm, hbo⟩ := forall₂_mem_left hf (mem_product_two as bs i j hi hj)
  have hbo := hcall i j b hbo
  obtain ⟨i1, i2, i3⟩ := has i hi
  obtain ⟨j1, j2, j3⟩ := hbs j hj
  have hhas := C45_diff_partial ctx.p hp i.1 i.2 j.1 j.2 i1 i2 i3 j1 j2 j3 (hw i hi j hj) x y v hxi.1 hxi.2 hyj.1 hyj.2 (hF x y v hv)
  refine C46_covers_partial ctx.p out l hl ?_ v b hbm (by rw [hbo]; exact hhas)
  have hsub : ∀ b ∈ out, b ∈ as.flatMap fun i => bs.map fun j => angDiff ctx.p i j := by
    intro b hb
    obtain ⟨c, hc, hcb⟩ := forall₂_mem_right hf hb
    obtain ⟨i, hi, j, hj, rfl⟩ := product_two as bs c hc
    rw [hcall i j b hcb]
    exact List.mem_flatMap.2 ⟨i, hi, List.mem_map_of_mem hj⟩
  unfold Mergeable at hmerge
  exact hmerge.imp (fun h b hb => h b (hsub b hb)) (Or.imp (fun h b hb => h b (hsub b hb))
    (Or.imp (fun ⟨x, h⟩ => ⟨x, fun b hb => h b (hsub b hb)⟩) (fun ⟨x, z, h⟩ => ⟨x, z, fun b hb => h b (hsub b hb)⟩)))

end

/-- The hypotheses of `C67_minus_partial` hold for `a` in `[-1/2, -1/4]` or `[1/4, 1/2]` and `b = 0`, with half a turn equal to 1, and the bounds are both intervals. -/
example : (∀ i ∈ ([(-1/2, -1/4), (1/4, 1/2)] : List (ℚ × ℚ)), ∀ j ∈ ([(0, 0)] : List (ℚ × ℚ)),
      (-1 : ℚ) ≤ i.1 ∧ i.1 ≤ i.2 ∧ i.2 ≤ 1 ∧ -1 ≤ j.1 ∧ j.1 ≤ j.2 ∧ j.2 ≤ 1 ∧ (i.2 - i.1) + (j.2 - j.1) < 2 * 1) ∧
    Mergeable (1 : ℚ) (([(-1/2, -1/4), (1/4, 1/2)] : List (ℚ × ℚ)).flatMap fun i => ([(0, 0)] : List (ℚ × ℚ)).map fun j => angDiff 1 i j) ∧
    exprBounds exCtx [] (.call2 "minus_angular" (.name "a") (.name "b")) [("a", [(-1/2, -1/4), (1/4, 1/2)]), ("b", [(0, 0)])] = .ok [(1/4, 1/2), (-1/2, -1/4)] := by
  refine ⟨?_, ?_, by decide +kernel⟩
  · intro i hi j hj
    simp only [List.mem_cons, List.not_mem_nil, or_false] at hi hj
    subst hj
    rcases hi with rfl | rfl <;> norm_num
  · have e : (([(-1/2, -1/4), (1/4, 1/2)] : List (ℚ × ℚ)).flatMap fun i => ([(0, 0)] : List (ℚ × ℚ)).map fun j => angDiff 1 i j) =
        [.one (-1/2) (-1/4), .one (1/4) (1/2)] := by decide +kernel
    rw [e]
    right; right; right
    refine ⟨1/4, -1/4, ?_⟩
    intro b hb iv hiv
    simp only [List.mem_cons, List.not_mem_nil, or_false] at hb
    rcases hb with rfl | rfl
    · rw [ABound.parts, if_neg (by norm_num), List.mem_singleton] at hiv
      subst hiv; right; norm_num
    · rw [ABound.parts, if_neg (by norm_num), List.mem_singleton] at hiv
      subst hiv; left; norm_num

open Real in
/-- **C67 (partial).** `a = arctan2(y, x)`, where the bounds of `y` and of `x` consist of any number of intervals: the bounds of `a` contain the
value, if no combination of intervals has the origin in its box and the bounds of all combinations can be merged without loss.
Missing: other arrangements (`C46_straddle_violated`). -/
theorem C67_arctan2_lists_partial (ctx : Ctx ℝ) (hp : ctx.p = π) (hat : ctx.at2 = arctan2) (hF : ∀ y x, ctx.F.f2 "arctan2" y x = some (arctan2 y x))
    (pws : List (PFun ℝ)) (yn xn : String) (hyn : ∀ t ∈ specialTexts, ¬ Occurs t yn) (hxn : ∀ t ∈ specialTexts, ¬ Occurs t xn) (cur : Bounds ℝ)
    (ys xs : List (ℝ × ℝ)) (hy : Dict.get? cur yn = some ys) (hx : Dict.get? cur xn = some xs)
    (horigin : ∀ j ∈ ys, ∀ i ∈ xs, ¬ (i.1 ≤ 0 ∧ 0 ≤ i.2 ∧ j.1 ≤ 0 ∧ 0 ≤ j.2))
    (hmerge : Mergeable π (ys.flatMap fun j => xs.map fun i => spanRectParser π arctan2 j i))
    (l : List (ℝ × ℝ)) (h : exprBounds ctx pws (.call2 "arctan2" (.name yn) (.name xn)) cur = .ok l) (env : Env ℝ) (v : ℝ) (hin : EnvIn env cur)
    (hv : evalE ctx.F env (.call2 "arctan2" (.name yn) (.name xn)) = some v) : InSome l v := by
  have hmem : "angular_span_rect_parser" ∈ angularFunctions := by decide +kernel
  obtain ⟨out, hout, hl⟩ := angular_lists ctx pws "arctan2" "angular_span_rect_parser" alias_arctan2 hmem yn xn hyn hxn cur ys xs hy hx l h
  have hf := (mapM_ok_iff _ _ _).1 hout
  have hcall : ∀ j i r, angCall ctx "angular_span_rect_parser" [j, i] = .ok r → r = spanRectParser π arctan2 j i := by
    intro j i r hr
    rw [← hp, ← hat]
    exact angCall_span ctx _ rfl j i r hr
  simp only [evalE, Option.bind_eq_some_iff] at hv
  obtain ⟨y, hyv, x, hxv, hv⟩ := hv
  rw [hF] at hv
  injection hv with hv; subst hv
  obtain ⟨y', hy', j, hj, hyj⟩ := hin.inside _ (Dict.mem_of_get? hy)
  dsimp only at hy' hj
  rw [hyv] at hy'; injection hy' with hy'; subst hy'
  obtain ⟨x', hx', i, hi, hxi⟩ := hin.inside _ (Dict.mem_of_get? hx)
  dsimp only at hx' hi
  rw [hxv] at hx'; injection hx' with hx'; subst hx'
  obtain ⟨b, hbm, hbo⟩ := forall₂_mem_left hf (mem_product_two ys xs j i hj hi)
  have hbo := hcall j i b hbo
  have ho := horigin j hj i hi
  have hne : x ≠ 0 ∨ y ≠ 0 := by
    by_contra hc
    rw [not_or, not_not, not_not] at hc
    exact ho ⟨by rw [← hc.1]; exact hxi.1, by rw [← hc.1]; exact hxi.2, by rw [← hc.2]; exact hyj.1, by rw [← hc.2]; exact hyj.2⟩
  have hhas := C65_parser_partial i.1 i.2 j.1 j.2 (fun hc => ho ⟨hc.1.le, hc.2.1.le, hc.2.2.1.le, hc.2.2.2.symm.le⟩) x y _ hxi.1 hxi.2 hyj.1 hyj.2 (direction_arctan2 x y hne)
  rw [hp] at hl
  refine C46_covers_partial π out l hl ?_ _ b hbm (by rw [hbo]; exact hhas)
  have hsub : ∀ b ∈ out, b ∈ ys.flatMap fun j => xs.map fun i => spanRectParser π arctan2 j i := by
    intro b hb
    obtain ⟨c, hc, hcb⟩ := forall₂_mem_right hf hb
    obtain ⟨j, hj, i, hi, rfl⟩ := product_two ys xs c hc
    rw [hcall j i b hcb]
    exact List.mem_flatMap.2 ⟨j, hj, List.mem_map_of_mem hi⟩
  unfold Mergeable at hmerge
  exact hmerge.imp (fun h b hb => h b (hsub b hb)) (Or.imp (fun h b hb => h b (hsub b hb))
    (Or.imp (fun ⟨x, h⟩ => ⟨x, fun b hb => h b (hsub b hb)⟩) (fun ⟨x, z, h⟩ => ⟨x, z, fun b hb => h b (hsub b hb)⟩)))

open Real in
/-- Boxes above the `x` axis, any number of them, can be merged without loss. -/
theorem mergeable_above (ys xs : List (ℝ × ℝ)) (hys : ∀ j ∈ ys, 0 < j.1 ∧ j.1 ≤ j.2) : Mergeable π (ys.flatMap fun j => xs.map fun i => spanRectParser π arctan2 j i) := by
  left
  intro b hb iv hiv
  obtain ⟨j, hj, hb⟩ := List.mem_flatMap.1 hb
  obtain ⟨i, _, rfl⟩ := List.mem_map.1 hb
  obtain ⟨h1, h2⟩ := hys j hj
  have hs : spanBetween π arctan2 ⟨0, 0, 0, 0⟩ ⟨i.1, i.2, j.1, j.2⟩ =
      spanOf π ((cornerVecs ⟨0, 0, 0, 0⟩ ⟨i.1, i.2, j.1, j.2⟩).map fun v => arctan2 v.2 v.1) := by
    unfold spanBetween
    rw [if_neg]
    rintro (⟨a, b, _⟩ | ⟨_, _, a, _⟩)
    · dsimp only at a b; linarith
    · dsimp only at a; linarith
  obtain ⟨A, hA⟩ : ∃ A, A = (cornerVecs ⟨0, 0, 0, 0⟩ ⟨i.1, i.2, j.1, j.2⟩).map fun v => arctan2 v.2 v.1 := ⟨_, rfl⟩
  have hne : A ≠ [] := by rw [hA]; simp [cornerVecs, RectXY.corners]
  have hpos : ∀ a ∈ A, 0 < a ∧ a ≤ π := by
    intro a ha
    rw [hA] at ha
    obtain ⟨v, hv, rfl⟩ := List.mem_map.1 ha
    have hv2 : 0 < v.2 := by
      simp [cornerVecs, RectXY.corners] at hv
      rcases hv with rfl | rfl | rfl | rfl <;> dsimp only <;> linarith
    refine ⟨lt_of_le_of_ne (arctan2_up _ _ hv2.le) ?_, (arctan2_range _ _).2⟩
    intro hc
    have := (Complex.arg_eq_zero_iff.1 hc.symm).2
    simp at this
    linarith
  have m1 := hpos _ (minList_mem A hne)
  have m2 := hpos _ (maxList_mem A hne)
  have hle : minList A ≤ maxList A := Verif.Ang.minList_le A _ (maxList_mem A hne)
  have hspan : spanOf π A = (minList A, maxList A) := by
    unfold spanOf
    dsimp only
    rw [if_pos (by linarith)]
  rw [← hA, hspan] at hs
  unfold spanRectParser at hiv
  rw [hs] at hiv
  dsimp only at hiv
  rw [if_pos hle, ABound.parts, if_neg (not_lt.2 hle), List.mem_singleton] at hiv
  rw [hiv]
  exact ⟨m1.1.le, m2.1⟩

open Real in
/-- The hypotheses of `C67_arctan2_lists_partial` on the bounds hold for `y` in `[1, 2]` or `[3, 4]` and `x` in `[-2, 1]` or `[5, 6]`. -/
example : (∀ j ∈ ([(1, 2), (3, 4)] : List (ℝ × ℝ)), ∀ i ∈ ([(-2, 1), (5, 6)] : List (ℝ × ℝ)), ¬ (i.1 ≤ 0 ∧ 0 ≤ i.2 ∧ j.1 ≤ 0 ∧ 0 ≤ j.2)) ∧
    Mergeable π (([(1, 2), (3, 4)] : List (ℝ × ℝ)).flatMap fun j => ([(-2, 1), (5, 6)] : List (ℝ × ℝ)).map fun i => spanRectParser π arctan2 j i) := by
  have h : ∀ j ∈ ([(1, 2), (3, 4)] : List (ℝ × ℝ)), 0 < j.1 ∧ j.1 ≤ j.2 := by
    intro j hj
    simp only [List.mem_cons, List.not_mem_nil, or_false] at hj
    rcases hj with rfl | rfl <;> norm_num
  exact ⟨fun j hj i _ hc => absurd (h j hj).1 (not_lt.2 hc.2.2.1), mergeable_above _ _ h⟩

/-! ### Splits -/

section
variable {K : Type} [Field K] [LinearOrder K] [IsStrictOrderedRing K]

theorem unionVar_lists (p : K) (all : List (List (K × K))) (r : List (K × K)) (h : unionVar p all = .ok r)
    (hs : (∀ l ∈ all, l.length = 1) ∨ Mergeable p (all.map .many)) (v : K) (l : List (K × K)) (hl : l ∈ all) (hv : InSome l v) : InSome r v := by
  by_cases h1 : ∀ l ∈ all, l.length = 1
  · exact (unionVar_covers p all r h h1 v l hl hv).1
  have hm := hs.resolve_left h1
  unfold unionVar at h
  split at h
  · exact C46_covers_partial p _ r h hm v (.many l) (List.mem_map_of_mem hl) hv
  next hno =>
    exfalso
    obtain ⟨bs, hbs, _⟩ := (bind_ok_iff _ _ _).1 h
    apply h1
    intro l hl
    obtain ⟨b, _, hb⟩ := forall₂_mem_left ((mapM_ok_iff _ _ _).1 hbs) hl
    have : ¬ 1 < l.length := fun hc => hno (List.any_eq_true.2 ⟨l, hl, decide_eq_true hc⟩)
    cases l with
    | nil => cases hb
    | cons c l => simp at this ⊢; exact this

theorem unionAll_lists (p : K) (all : List (Bounds K)) (u : Bounds K) (h : unionAll p all = .ok u)
    (hs : ∀ v bs, all.mapM (lookupB v) = .ok bs → (∀ l ∈ bs, l.length = 1) ∨ Mergeable p (bs.map .many))
    (vars : String → Prop) (hvars : ∀ r ∈ all, ∀ n, n ∈ r.map Prod.fst ↔ vars n) (r : Bounds K) (hr : r ∈ all) (env : Env K) (hin : EnvIn env r) : EnvIn env u := by
  unfold unionAll at h
  cases all with
  | nil => cases h
  | cons first rest =>
    dsimp only at h
    have hf := (mapM_ok_iff _ _ _).1 h
    have hkeys : u.map Prod.fst = first.map Prod.fst := by
      have : ∀ (ks : List String) (u : Bounds K), List.Forall₂ (fun v q => (((first :: rest).mapM (lookupB v)).bind fun bs => (unionVar p bs).map fun l => (v, l)) = .ok q) ks u →
          u.map Prod.fst = ks := by
        intro ks u hf
        induction hf with
        | nil => rfl
        | cons h _ ih =>
          obtain ⟨bs, _, h⟩ := (bind_ok_iff _ _ _).1 h
          obtain ⟨l, _, rfl⟩ := (map_ok_iff _ _ _).1 h
          rw [List.map_cons, ih]
      exact this _ _ hf
    refine ⟨?_, ?_⟩
    · intro q hq
      obtain ⟨v, hv, h⟩ := forall₂_mem_right hf hq
      obtain ⟨bs, hbs, h⟩ := (bind_ok_iff _ _ _).1 h
      obtain ⟨l, hl, rfl⟩ := (map_ok_iff _ _ _).1 h
      obtain ⟨lr, hlr, hlr'⟩ := forall₂_mem_left ((mapM_ok_iff _ _ _).1 hbs) hr
      obtain ⟨w, hw, hh⟩ := hin.inside _ (Dict.mem_of_get? (lookupB_ok _ _ _ hlr'))
      exact ⟨w, hw, unionVar_lists p bs l hl (hs v bs hbs) w lr hlr hh⟩
    · intro n w hw
      rw [hkeys, hvars first (by simp) n, ← hvars r hr n]
      exact hin.known n w hw

theorem splitIv_one (b : K × K) : b ∈ splitIv 1 b := by
  unfold splitIv
  split
  · simp
  · simp [linPoint]

theorem splitIv_one_all : ∀ input : List (K × K), List.Forall₂ (fun a l => a ∈ l) input (input.map (splitIv 1))
  | [] => .nil
  | b :: l => .cons (splitIv_one b) (splitIv_one_all l)

/-- **C67 (partial).** Splitting into any number of parts, from an empty cache, with any bounds of expressions, also such that consist of several
intervals: if the results for the parts contain the values of all variables for the arguments in that part, so does the result for the whole,
provided that for every variable all parts have a single interval or the bounds of all parts can be merged without loss.
Missing: other arrangements of angles (`C46_straddle_violated`). -/
theorem C67_splits_lists_partial (F : Funs K) (p : K) (eb : EB K) (f : PFun K) (hn : f.params.Nodup)
    (input : List (K × K)) (cache : Bool) (n : Nat)
    (hparts : ∀ part ∈ product (input.map (splitIv n)), ∀ q, parseFunction eb f (boxDict f.params part) = .ok q → CoversValues F f (boxDict f.params part) q.1)
    (hmerge : ∀ rs, (product (input.map (splitIv n))).mapM (fun part => (parseFunction eb f (boxDict f.params part)).map Prod.fst) = .ok rs →
      ∀ v bs, rs.mapM (lookupB v) = .ok bs → (∀ l ∈ bs, l.length = 1) ∨ Mergeable p (bs.map .many))
    (r : ArrayResult K) (h : (parseArray p eb f input cache n []).1 = .ok r) : CoversValues F f (boxDict f.params input) r.bounds := by
  have hpf : ∀ (b : Bounds K) (q : Bounds K × List (Bounds K)), parseFunction eb f b = .ok q →
      ∀ m, m ∈ q.1.map Prod.fst ↔ m ∈ b.map Prod.fst ∨ m ∈ assignedVars f.body := fun b q hq => parseLoop_vars eb f.body b _ q hq
  have hpc : ∀ (b : Bounds K) (c parent : Bool), (parseCached eb f b c parent []).1 = (parseFunction eb f b).map fun q => (q.1, some q.2) := by
    intro b c parent
    unfold parseCached
    rw [Dict.get?_nil]
    dsimp only
    cases parseFunction eb f b <;> rfl
  unfold parseArray at h
  split at h
  · cases h
  next hlen =>
  have hlen : f.params.length = input.length := by simpa using (not_not.1 hlen).symm
  split at h
  · cases h
  dsimp only at h
  rw [Dict.get?_nil] at h
  dsimp only at h
  split at h
  · next h1 =>
    subst h1
    rw [hpc] at h
    obtain ⟨x, hx, rfl⟩ := (map_ok_iff _ _ _).1 h
    obtain ⟨q, hq, rfl⟩ := (map_ok_iff _ _ _).1 hx
    exact hparts input ((mem_product _ _).2 (splitIv_one_all input)) q hq
  · split at h
    · cases h
    · next u hu =>
      injection h with h; subst h
      unfold parseSplits at hu
      simp only [hpc] at hu
      obtain ⟨all, hall0, hu⟩ := (bind_ok_iff _ _ _).1 hu
      have hall1 : (product (input.map (splitIv n))).mapM (fun part => (parseFunction eb f (boxDict f.params part)).map Prod.fst) = .ok all := by
        rw [← hall0]
        congr 1
        funext part
        cases parseFunction eb f (boxDict f.params part) <;> rfl
      have hall := (mapM_ok_iff _ _ _).1 hall1
      have hlen' : ∀ sb ∈ product (input.map (splitIv n)), f.params.length = sb.length := by
        intro sb hsb
        rw [((mem_product _ _).1 hsb).length_eq, List.length_map, hlen]
      have hvars : ∀ r ∈ all, ∀ m, m ∈ r.map Prod.fst ↔ m ∈ f.params ∨ m ∈ assignedVars f.body := by
        intro r hr m
        obtain ⟨sb, hsb, h⟩ := forall₂_mem_right hall hr
        obtain ⟨q, hq, rfl⟩ := (map_ok_iff _ _ _).1 h
        have := hpf _ q hq m
        rwa [boxDict_keys _ hn _ (hlen' sb hsb)] at this
      intro env env' hin he
      have h0 : 0 < n ∨ ∀ b ∈ input, b.1 = b.2 := by
        rcases Nat.eq_zero_or_pos n with rfl | h
        · right
          intro b hb
          obtain ⟨r, hr⟩ : ∃ r, r ∈ all := by
            cases all with
            | nil => cases hu
            | cons r _ => exact ⟨r, by simp⟩
          obtain ⟨sb, hsb, _⟩ := forall₂_mem_right hall hr
          obtain ⟨c, _, hc⟩ := forall₂_mem_right ((mem_product _ _).1 hsb) (List.mem_map_of_mem hb)
          by_contra hne
          simp [splitIv, hne] at hc
        · exact .inl h
      obtain ⟨sb, hsb, hl', hin'⟩ := split_env f.params hn env n input h0 hlen hin
      obtain ⟨r, hrm, h⟩ := forall₂_mem_left hall hsb
      obtain ⟨q, hq, rfl⟩ := (map_ok_iff _ _ _).1 h
      exact unionAll_lists p all u hu (hmerge all hall1) _ hvars _ hrm env' (hparts sb hsb q hq env env' hin' he)

end

/-! An example: `def f(a, b): w = minus_angular(a, b); return w` for `a` in `[3/4, 1]` and `b` in `[-1/4, 0]`, in two parts each, with half a turn equal to 1. -/

def exMinus : PFun ℚ := ⟨"f", ["a", "b"], [.assign "w" (.call2 "minus_angular" (.name "a") (.name "b")), .ret (.name "w")]⟩

theorem exMinus_result : (parseArray 1 (exprBounds exCtx []) exMinus [(3/4, 1), (-1/4, 0)] false 2 []).1 =
    .ok (.only [("a", [(3/4, 1)]), ("b", [(-1/4, 0)]), ("w", [(3/4, 1), (-1, -3/4)])]) := by decide +kernel

/-- Intervals that end in half a turn, and intervals that begin there, can be merged. -/
theorem mergeable_ends (l : List (ABound ℚ)) (h : ∀ b ∈ l, ∀ iv ∈ b.parts 1, (0 ≤ iv.1 ∧ iv.1 ≤ 1 ∧ iv.2 = 1) ∨ (iv.1 = -1 ∧ iv.2 ≤ 0 ∧ -1 ≤ iv.2)) : Mergeable (1 : ℚ) l := by
  right; right; right
  refine ⟨1, -1, ?_⟩
  intro b hb iv hiv
  rcases h b hb iv hiv with ⟨h1, h2, h3⟩ | ⟨h1, h2, h3⟩
  · left; rw [h3]; exact ⟨⟨h1, one_pos⟩, h2, le_refl _⟩
  · right; rw [h1]; exact ⟨⟨by norm_num, h2⟩, le_refl _, h3⟩

theorem exMinus_parts : product ([((3/4 : ℚ), (1 : ℚ)), (-1/4, 0)].map (splitIv 2)) =
    [[(3/4, 7/8), (-1/4, -1/8)], [(3/4, 7/8), (-1/8, 0)], [(7/8, 1), (-1/4, -1/8)], [(7/8, 1), (-1/8, 0)]] := by decide +kernel

theorem exMinus_covers (i j : ℚ × ℚ) (hi : -1 ≤ i.1 ∧ i.1 ≤ i.2 ∧ i.2 ≤ 1) (hj : -1 ≤ j.1 ∧ j.1 ≤ j.2 ∧ j.2 ≤ 1) (hw : (i.2 - i.1) + (j.2 - j.1) < 2)
    (hm : Mergeable (1 : ℚ) ([i].flatMap fun i => [j].map fun j => angDiff 1 i j)) (q : Bounds ℚ × List (Bounds ℚ))
    (h : parseFunction (exprBounds exCtx []) exMinus [("a", [i]), ("b", [j])] = .ok q) : CoversValues exCtx.F exMinus [("a", [i]), ("b", [j])] q.1 := by
  have hsp : ∀ s ∈ ["a", "b"], ∀ t ∈ specialTexts, has t s = false := by decide +kernel
  have ha : Dict.get? ([("a", [i]), ("b", [j])] : Bounds ℚ) "a" = some [i] := rfl
  have hb : Dict.get? ([("a", [i]), ("b", [j])] : Bounds ℚ) "b" = some [j] := by
    have : ("b" : String) ≠ "a" := by decide
    simp [Dict.get?_cons]
  simp only [parseFunction, exMinus, parseLoop] at h
  obtain ⟨l, hl, h⟩ := (bind_ok_iff _ _ _).1 h
  injection h with h; subst h
  intro env env' hin he
  simp only [exMinus, envAtReturn, Option.bind_eq_some_iff] at he
  obtain ⟨v, hv, he⟩ := he
  injection he with he; subst he
  have key : InSome l v := by
    refine C67_minus_partial exCtx one_pos ?_ [] "a" "b" (fun t ht => not_occurs t _ (hsp _ (by simp) t ht)) (fun t ht => not_occurs t _ (hsp _ (by simp) t ht)) _ [i] [j] ha hb
      ?_ ?_ ?_ hm l hl env v hin hv
    · intro a b y hy
      have hh : exCtx.F.f2 "minus_angular" a b = some (wrapAngle (1 : ℚ) (a - b)) := rfl
      rw [hh] at hy; injection hy with hy
      rw [← hy]
      exact wrapAngle_isWrap (1 : ℚ) (a - b) one_pos
    · intro k hk; rw [List.mem_singleton.1 hk]; exact hi
    · intro k hk; rw [List.mem_singleton.1 hk]; exact hj
    · intro k hk m hm'; rw [List.mem_singleton.1 hk, List.mem_singleton.1 hm']; right; right; left
      rw [show exCtx.p = 1 from rfl, mul_one]; exact hw
  exact envIn_set env _ (by simp) hin "w" v l key

/-- The hypotheses of `C67_splits_lists_partial` hold for the example, where `w` gets two intervals. -/
example : CoversValues exCtx.F exMinus (boxDict exMinus.params [(3/4, 1), (-1/4, 0)]) [("a", [(3/4, 1)]), ("b", [(-1/4, 0)]), ("w", [(3/4, 1), (-1, -3/4)])] := by
  refine C67_splits_lists_partial exCtx.F 1 (exprBounds exCtx []) exMinus (by decide) [(3/4, 1), (-1/4, 0)] false 2 ?_ ?_ _ exMinus_result
  · rw [exMinus_parts]
    intro part hpart q hq
    simp only [List.mem_cons, List.not_mem_nil, or_false] at hpart
    rcases hpart with rfl | rfl | rfl | rfl
    · exact exMinus_covers (3/4, 7/8) (-1/4, -1/8) (by norm_num) (by norm_num) (by norm_num) (mergeable_ends _ (by decide +kernel)) q hq
    · exact exMinus_covers (3/4, 7/8) (-1/8, 0) (by norm_num) (by norm_num) (by norm_num) (mergeable_ends _ (by decide +kernel)) q hq
    · exact exMinus_covers (7/8, 1) (-1/4, -1/8) (by norm_num) (by norm_num) (by norm_num) (mergeable_ends _ (by decide +kernel)) q hq
    · exact exMinus_covers (7/8, 1) (-1/8, 0) (by norm_num) (by norm_num) (by norm_num) (mergeable_ends _ (by decide +kernel)) q hq
  · intro rs hrs v bs hbs
    have e : rs = [[("a", [(3/4, 7/8)]), ("b", [(-1/4, -1/8)]), ("w", [(7/8, 1), (-1, -7/8)])], [("a", [(3/4, 7/8)]), ("b", [(-1/8, 0)]), ("w", [(3/4, 1), (-1, -1)])],
        [("a", [(7/8, 1)]), ("b", [(-1/4, -1/8)]), ("w", [(1, 1), (-1, -3/4)])], [("a", [(7/8, 1)]), ("b", [(-1/8, 0)]), ("w", [(7/8, 1), (-1, -7/8)])]] := by
      have : (product ([((3/4 : ℚ), (1 : ℚ)), (-1/4, 0)].map (splitIv 2))).mapM (fun part => (parseFunction (exprBounds exCtx []) exMinus (boxDict exMinus.params part)).map Prod.fst) =
        .ok [[("a", [(3/4, 7/8)]), ("b", [(-1/4, -1/8)]), ("w", [(7/8, 1), (-1, -7/8)])], [("a", [(3/4, 7/8)]), ("b", [(-1/8, 0)]), ("w", [(3/4, 1), (-1, -1)])],
        [("a", [(7/8, 1)]), ("b", [(-1/4, -1/8)]), ("w", [(1, 1), (-1, -3/4)])], [("a", [(7/8, 1)]), ("b", [(-1/8, 0)]), ("w", [(7/8, 1), (-1, -7/8)])]] := by decide +kernel
      rw [this] at hrs
      injection hrs with hrs; exact hrs.symm
    have hf := (mapM_ok_iff _ _ _).1 hbs
    by_cases hv : v = "w"
    · right
      have : rs.mapM (lookupB "w") = .ok [[(7/8, 1), (-1, -7/8)], [(3/4, 1), (-1, -1)], [(1, 1), (-1, -3/4)], [(7/8, 1), (-1, -7/8)]] := by
        rw [e]; decide +kernel
      rw [hv, this] at hbs
      injection hbs with hbs; rw [← hbs]
      exact mergeable_ends _ (by decide +kernel)
    · left
      intro l hl
      obtain ⟨r, hr, hlr⟩ := forall₂_mem_right hf hl
      have hm := Dict.mem_of_get? (lookupB_ok _ _ _ hlr)
      rw [e] at hr
      have hall : ∀ r ∈ [[("a", [((3/4 : ℚ), (7/8 : ℚ))]), ("b", [(-1/4, -1/8)]), ("w", [(7/8, 1), (-1, -7/8)])], [("a", [(3/4, 7/8)]), ("b", [(-1/8, 0)]), ("w", [(3/4, 1), (-1, -1)])],
        [("a", [(7/8, 1)]), ("b", [(-1/4, -1/8)]), ("w", [(1, 1), (-1, -3/4)])], [("a", [(7/8, 1)]), ("b", [(-1/8, 0)]), ("w", [(7/8, 1), (-1, -7/8)])]], ∀ q ∈ r, q.1 = "w" ∨ q.2.length = 1 := by
        decide +kernel
      exact (hall r hr _ hm).resolve_left hv

end Verif.Props
