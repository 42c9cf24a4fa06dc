import Verif.Proofs.StarReset
import Verif.Props.Reset
import Mathlib.Tactic.Ring
import Mathlib.Tactic.NormNum
import Mathlib.Tactic.Linarith

/-! C69: resets of star sets. -/

set_option autoImplicit false
set_option linter.unusedSectionVars false

namespace Verif.Props

open Verif Verif.Rst Verif.Rst.Spec Verif.Stars Verif.StarRst Verif.StarRst.Spec Verif.Proofs.Rst Verif.Proofs.StarRst Finset

section
variable {K V D : Type} [Field K] [LinearOrder K]

/-- **C69**, in part. If all reset expressions are affine functions of the state of the agent, the points of the star set after the resets are
exactly the states after the resets of the points of the star set.

Required of the texts: at the points where the expressions are evaluated, names and numbers can be told apart (`Readable`), and no variable is
directly the base of a power. Missing: names of which one is part of the other (`C69_names_violated`), expressions that are not affine
(`C69_square_violated`), and variables of other agents, for which the claim is false. -/
theorem C69_image_partial (sh : K → Text) (rd : Text → Option K) (contVars discVars : List String) (mode : List V) (s s' : StarSet K)
    (items : List (SItem V D)) (dests : List (List V)) (hrun : applyResetStars sh rd contVars discVars mode s items = .ok (dests, s'))
    (hs : Built s) (hdim : s.center.len = contVars.length)
    (hnd : contVars.Nodup) (hmode : ∀ v ∈ contVars, Sim.hasMode v = false) (hvars : (items.map SItem.var).Nodup)
    (hcont : ∀ it ∈ items, it.var ∈ contVars → it.cont.filter (fun k => decide (egoText <:+: k)) = contVars.map egoName)
    (hex : ∀ it ∈ items, ∀ e, it.val = .arith e → it.var ∈ contVars → AffineIn rd contVars e ∧
      ∀ x, Evaluated s x → Readable sh rd (pointDict contVars x) e ∧ NoVarPow (pointDict contVars x) e) :
    ∀ y, InStar s' y ↔ ∃ x, InStar s x ∧ ResetTo rd contVars items x y := by
  obtain ⟨acc, hacc, h⟩ := (bind_ok_iff _ _ _).1 hrun
  obtain ⟨s1, hmap, he⟩ := (map_ok_iff _ _ _).1 h
  cases he
  obtain ⟨k1, k2, k3, k4, k5⟩ := collect_spec contVars discVars hmode hnd items hvars _ acc hacc hcont (by simp) (by simp) (by simp) (by simp)
  -- the map
  have hrow : ∀ i : Nat, ∃ (a : K) (c : Nat → K), i < contVars.length → ∀ x : Nat → K,
      (∀ p ∈ acc.exprs, p.1 = i → value rd (egoVars contVars x) p.2.2 = some (a + ∑ k ∈ range contVars.length, c k * x k)) ∧
      (i ∉ acc.exprs.map Prod.fst → a + ∑ k ∈ range contVars.length, c k * x k = x i) := by
    intro i
    by_cases hi : i ∈ acc.exprs.map Prod.fst
    · obtain ⟨p, hp, rfl⟩ := List.mem_map.1 hi
      rcases (k4 p).1 hp with h | ⟨it, hit, e1, e2, e3⟩
      · simp at h
      · obtain ⟨a, c, hac⟩ := (hex it hit p.2.2 e2 (List.mem_of_getElem? e3)).1
        refine ⟨a, c, fun _ x => ⟨fun q hq hqi => ?_, fun h => absurd hi h⟩⟩
        have : q = p := List.inj_on_of_nodup_map k1 hq hp hqi
        rw [this]
        exact hac x
    · refine ⟨0, fun k => if k = i then 1 else 0, fun hil x => ⟨fun p hp hpi => absurd (List.mem_map.2 ⟨p, hp, hpi⟩) hi, fun _ => ?_⟩⟩
      simp [Finset.sum_ite_eq', hil]
  choose b M hMb using hrow
  have hreset : ∀ x y : Nat → K, ResetTo rd contVars items x y ↔ ∀ d < contVars.length, y d = affine contVars.length M b x d := by
    intro x y
    constructor
    · intro hr d hd
      obtain ⟨r1, r2⟩ := hr d contVars[d] (List.getElem?_eq_getElem hd)
      obtain ⟨m1, m2⟩ := hMb d hd x
      by_cases hin : d ∈ acc.exprs.map Prod.fst
      · obtain ⟨p, hp, rfl⟩ := List.mem_map.1 hin
        rcases (k4 p).1 hp with h | ⟨it, hit, e1, e2, e3⟩
        · simp at h
        · rw [List.getElem?_eq_getElem hd, Option.some.injEq] at e3
          obtain ⟨e, q1, q2⟩ := r1 it hit e3.symm
          rw [e2] at q1
          injection q1 with q1
          rw [← q1, m1 p hp rfl, Option.some.injEq] at q2
          exact q2.symm
      · unfold affine
        rw [m2 hin]
        refine r2 (fun it hit hv => hin ?_)
        obtain ⟨e, he⟩ := k5 it hit (by rw [hv]; exact List.getElem_mem hd)
        exact List.mem_map.2 ⟨(d, (it.var, e)), (k4 _).2 (.inr ⟨it, hit, rfl, he, by rw [List.getElem?_eq_getElem hd, hv]⟩), rfl⟩
    · intro hy i v hv
      have hi : i < contVars.length := (List.getElem?_eq_some_iff.1 hv).1
      obtain ⟨m1, m2⟩ := hMb i hi x
      constructor
      · intro it hit hiv
        obtain ⟨e, he⟩ := k5 it hit (by rw [hiv]; exact List.mem_of_getElem? hv)
        refine ⟨e, he, ?_⟩
        rw [hy i hi]
        exact m1 (i, (it.var, e)) ((k4 _).2 (.inr ⟨it, hit, rfl, he, by rw [hv, hiv]⟩)) rfl
      · intro hno
        rw [hy i hi]
        refine m2 (fun hin => ?_)
        obtain ⟨p, hp, rfl⟩ := List.mem_map.1 hin
        rcases (k4 p).1 hp with h | ⟨it, hit, e1, e2, e3⟩
        · simp at h
        · rw [hv, Option.some.injEq] at e3
          exact hno it hit e3.symm
  -- the function is this map where it is evaluated
  obtain ⟨-, himg⟩ := applyMap_affine s s' hs (resetFunc sh rd acc.sv acc.exprs) M b (by
    intro x hx hev
    have hall : ∀ p ∈ acc.exprs, AffineIn rd contVars p.2.2 ∧ Readable sh rd (pointDict contVars x.at_) p.2.2 ∧ NoVarPow (pointDict contVars x.at_) p.2.2 := by
      intro p hp
      rcases (k4 p).1 hp with h | ⟨it, hit, e1, e2, e3⟩
      · simp at h
      · obtain ⟨q1, q2⟩ := hex it hit p.2.2 e2 (List.mem_of_getElem? e3)
        exact ⟨q1, q2 _ hev⟩
    by_cases hemp : acc.exprs = []
    · refine ⟨ofList ((List.range x.len).map x.at_), ?_, by simp [ofList, hx], fun d hd => ?_⟩
      · unfold resetFunc; rw [hemp]; rfl
      · rw [hdim] at hd
        have := (hMb d hd x.at_).2 (by rw [hemp]; simp)
        rw [hdim]
        unfold affine
        rw [this]
        simp [ofList, hx, hdim, hd]
    · rw [k3 hemp]
      obtain ⟨y, y1, y2, y3, y4⟩ := resetFunc_eq sh rd contVars hnd acc.exprs k1 k2 x (hx.trans hdim) (fun p hp => (hall p hp).2)
        (fun p hp => by obtain ⟨a, c, hac⟩ := (hall p hp).1; exact ⟨_, hac x.at_⟩)
      refine ⟨y, y1, y2.trans hdim.symm, fun d hd => ?_⟩
      rw [hdim] at hd ⊢
      obtain ⟨m1, m2⟩ := hMb d hd x.at_
      by_cases hin : d ∈ acc.exprs.map Prod.fst
      · obtain ⟨p, hp, rfl⟩ := List.mem_map.1 hin
        have := (y3 p hp).symm.trans (m1 p hp rfl)
        exact Option.some.inj this
      · rw [y4 d hd hin]
        exact (m2 hin).symm) hmap
  intro y
  rw [himg y]
  simp only [hreset, hdim]

/-- Sums, differences and multiples of variables and numbers are affine. -/
theorem C69_linear_partial (rd : Text → Option K) (contVars : List String) (hnd : contVars.Nodup) (e : Ex) (h : LinearEx rd contVars e) :
    AffineIn rd contVars e := by
  have hnone : ∀ (x : Nat → K) (t : Text), t ∉ contVars.map egoName → egoVars contVars x t = none := by
    intro x t ht
    unfold egoVars
    rw [Option.map_eq_none_iff, List.find?_eq_none]
    intro vi hvi
    simp only [decide_eq_true_eq]
    rintro rfl
    exact ht (List.mem_map_of_mem (List.mem_of_getElem? (List.mem_zipIdx_iff_getElem?.1 hvi)))
  have hclosed : ∀ (x : Nat → K) (e : Ex), (∀ t, Occurs t e → t ∉ contVars.map egoName) →
      value rd (egoVars contVars x) e = value rd (fun _ => none) e :=
    fun x e h => value_congr rd _ _ e (fun t ht => hnone x t (h t ht))
  induction h with
  | var v hv =>
    obtain ⟨i, hi, rfl⟩ := List.getElem_of_mem hv
    refine ⟨0, fun k => if k = i then 1 else 0, fun x => ?_⟩
    have : egoVars contVars x (egoName contVars[i]) = some (x i) := by
      unfold egoVars
      rw [Option.map_eq_some_iff]
      refine ⟨(contVars[i], i), ?_, rfl⟩
      have hex : ((contVars.zipIdx).find? (fun vi => decide (egoName vi.1 = egoName contVars[i]))).isSome := by
        rw [List.find?_isSome]
        exact ⟨(contVars[i], i), List.mem_zipIdx_iff_getElem?.2 (List.getElem?_eq_getElem hi), by simp⟩
      obtain ⟨vi, hvi⟩ := Option.isSome_iff_exists.1 hex
      rw [hvi]
      have h1 := List.find?_some hvi
      have h2 := List.mem_zipIdx_iff_getElem?.1 (List.mem_of_find?_eq_some hvi)
      simp only [decide_eq_true_eq, egoName, List.append_cancel_left_eq, List.cons.injEq, true_and, String.toList_inj] at h1
      have h3 : vi.2 = i := by
        have hlt := (List.getElem?_eq_some_iff.1 h2).1
        exact (List.getElem?_inj hlt hnd).1 (h2.trans (by rw [h1, List.getElem?_eq_getElem hi]))
      exact congrArg some (Prod.ext h1 h3)
    simp only [value, this, Option.some_or]
    simp [hi]
  | closed e h x hx => exact ⟨x, fun _ => 0, fun y => by rw [hclosed y e h, hx]; simp⟩
  | neg a _ ih =>
    obtain ⟨p, c, h1⟩ := ih
    refine ⟨-p, fun k => -c k, fun x => ?_⟩
    simp only [value, h1, Option.map_some, Option.some.injEq, neg_mul, Finset.sum_neg_distrib]
    ring
  | add a b _ _ iha ihb =>
    obtain ⟨p, c, h1⟩ := iha
    obtain ⟨q, d, h2⟩ := ihb
    refine ⟨p + q, fun k => c k + d k, fun x => ?_⟩
    simp only [value, h1, h2, Option.bind_some, Option.map_some, Option.some.injEq, add_mul, Finset.sum_add_distrib]
    ring
  | sub a b _ _ iha ihb =>
    obtain ⟨p, c, h1⟩ := iha
    obtain ⟨q, d, h2⟩ := ihb
    refine ⟨p - q, fun k => c k - d k, fun x => ?_⟩
    simp only [value, h1, h2, Option.bind_some, Option.map_some, Option.some.injEq, sub_mul, Finset.sum_sub_distrib]
    ring
  | scale a b h y hy _ ih =>
    obtain ⟨p, c, h1⟩ := ih
    refine ⟨y * p, fun k => y * c k, fun x => ?_⟩
    simp only [value, h1, hclosed x a h, hy, Option.bind_some, Option.map_some, mul_add, Finset.mul_sum, mul_assoc]
  | scale' a b h y hy _ ih =>
    obtain ⟨p, c, h1⟩ := ih
    refine ⟨y * p, fun k => y * c k, fun x => ?_⟩
    simp only [value, h1, hclosed x b h, hy, Option.bind_some, Option.map_some, Option.some.injEq]
    rw [mul_comm, mul_add, Finset.mul_sum]
    simp only [mul_assoc]
  | div a b h y hy h0 _ ih =>
    obtain ⟨p, c, h1⟩ := ih
    refine ⟨p / y, fun k => c k / y, fun x => ?_⟩
    simp only [value, h1, hclosed x b h, hy, Option.bind_some, if_neg h0, Option.some.injEq]
    rw [add_div, div_eq_mul_inv (∑ k ∈ range contVars.length, c k * x k), Finset.sum_mul]
    congr 1
    exact Finset.sum_congr rfl (fun k _ => by ring)

/-- The destinations are the same as with rectangles (see C26). -/
theorem C69_destinations (sh : K → Text) (rd : Text → Option K) (contVars discVars : List String) (mode : List V) (s s' : StarSet K)
    (items : List (SItem V D)) (items' : List (Item K V D)) (rect rect' : Rect.Box K) (dests dests' : List (List V))
    (hsame : items.map (fun it => (it.var, it.val, it.disc)) = items'.map (fun it => (it.var, it.val, it.disc)))
    (hrun : applyResetStars sh rd contVars discVars mode s items = .ok (dests, s'))
    (hrun' : applyReset sh rd contVars discVars mode rect items' = .ok (dests', rect')) : dests = dests' := by
  obtain ⟨acc, hacc, h⟩ := (bind_ok_iff _ _ _).1 hrun
  obtain ⟨s1, hmap, he⟩ := (map_ok_iff _ _ _).1 h
  obtain ⟨r, hr, he'⟩ := (map_ok_iff _ _ _).1 hrun'
  cases he
  cases he'
  have key : ∀ (items : List (SItem V D)) (items' : List (Item K V D)) (a0 acc : Acc V) (b0 r : List (List V) × Rect.Box K),
      items.map (fun it => (it.var, it.val, it.disc)) = items'.map (fun it => (it.var, it.val, it.disc)) → a0.dests = b0.1 →
      items.foldlM (collectOne contVars discVars) a0 = .ok acc → items'.foldlM (applyOne sh rd contVars discVars) b0 = .ok r →
      acc.dests = r.1 := by
    intro items
    induction items with
    | nil =>
      intro items' a0 acc b0 r hs h0 h1 h2
      cases items' with
      | cons _ _ => simp at hs
      | nil =>
        simp only [List.foldlM_nil, pure, Except.pure, Except.ok.injEq] at h1 h2
        rw [← h1, ← h2]; exact h0
    | cons it items ih =>
      intro items' a0 acc b0 r hs h0 h1 h2
      cases items' with
      | nil => simp at hs
      | cons it' items' =>
        rw [List.map_cons, List.map_cons, List.cons.injEq, Prod.mk.injEq, Prod.mk.injEq] at hs
        obtain ⟨⟨e1, e2, e3⟩, hs⟩ := hs
        obtain ⟨a1, h1, h1'⟩ := (foldlM_cons_ok _ _ _ _ _).1 h1
        obtain ⟨b1, h2, h2'⟩ := (foldlM_cons_ok _ _ _ _ _).1 h2
        refine ih items' a1 acc b1 r hs ?_ h1' h2'
        unfold collectOne at h1
        unfold applyOne at h2
        rw [e1, e2, e3, h0] at h1
        by_cases hm : Sim.hasMode it'.var = true
        · rw [if_pos hm] at h1 h2
          split at h1
          · cases h1
          · next i hi =>
            rw [hi] at h2
            simp only at h2
            split at h1
            · cases h1
            · next old hold =>
              rw [hold] at h2
              injection h1 with h1
              injection h2 with h2
              rw [← h1, ← h2]
        · rw [if_neg hm] at h1 h2
          split at h1
          · cases h1
          · next i hi =>
            rw [hi] at h2
            simp only at h2
            split at h1
            · next e he =>
              rw [he] at h2
              injection h1 with h1
              obtain ⟨rg, -, h2⟩ := (bind_ok_iff _ _ _).1 h2
              split at h2
              · injection h2 with h2
                rw [← h1, ← h2]
              · cases h2
            · cases h1
  have := key items items' _ acc _ r hsame rfl hacc hr
  rw [this]

end

/-! ### cases -/

namespace SrEx

/-- A segment from (-1, 5) to (2, 5), as center (1, 5), basis vector (1, 0) and `-2 ≤ α ≤ 1`. -/
def star : StarSet ℚ := ⟨ofList [1, 5], ofRows 2 [ofList [1, 0]], ofRows 1 [ofList [1], ofList [-1]], ofList [1, 2]⟩

/-- `x = 2 * ego.v - ego.x` -/
def expr : Ex := .sub (.mul (.atom "2".toList) (.atom exV)) (.atom exX)

def items : List (SItem String Unit) :=
  [⟨"agent_mode", .member true "Brake", (), [exX, exV]⟩, ⟨"x", .arith expr, (), [exX, exV, "others.x".toList]⟩]

theorem built : Built star := (built_iff _).2 ⟨.inr rfl, rfl, rfl⟩

theorem run : ∃ s', applyResetStars exSh exRd ["x", "v"] ["agent_mode"] ["Normal"] star items = .ok ([["Brake"]], s') := by
  have h : ((applyResetStars exSh exRd ["x", "v"] ["agent_mode"] ["Normal"] star items).map Prod.fst).toOption = some [["Brake"]] := by decide +kernel
  match hr : applyResetStars exSh exRd ["x", "v"] ["agent_mode"] ["Normal"] star items, h with
  | .ok (d, s'), h =>
    have : d = [["Brake"]] := by simpa [hr, Except.map, Except.toOption] using h
    exact ⟨s', by rw [this]⟩
  | .error _, h => simp [Except.map, Except.toOption] at h

end SrEx

open SrEx in
/-- The hypotheses of `C69_image_partial` are met: the segment is mapped to the states with `x` from 8 to 11. -/
example : ∃ s', applyResetStars exSh exRd ["x", "v"] ["agent_mode"] ["Normal"] SrEx.star SrEx.items = .ok ([["Brake"]], s') ∧
    ∀ y, InStar s' y ↔ ∃ x, InStar SrEx.star x ∧ ResetTo exRd ["x", "v"] SrEx.items x y := by
  obtain ⟨s', hs'⟩ := SrEx.run
  refine ⟨s', hs', C69_image_partial exSh exRd ["x", "v"] ["agent_mode"] ["Normal"] SrEx.star s' SrEx.items _ hs' SrEx.built rfl (by decide)
    (by decide +kernel) (by decide) ?_ ?_⟩
  · intro it hit hv
    simp only [SrEx.items, List.mem_cons, List.not_mem_nil, or_false] at hit
    rcases hit with rfl | rfl
    · simp at hv
    · decide +kernel
  · intro it hit e he hv
    simp only [SrEx.items, List.mem_cons, List.not_mem_nil, or_false] at hit
    rcases hit with rfl | rfl
    · simp at hv
    · injection he with he
      subst he
      refine ⟨C69_linear_partial _ _ (by decide) _ (.sub _ _ (.scale _ _ ?_ 2 (by decide +kernel) (.var "v" (by simp))) (.var "x" (by simp))), ?_⟩
      · have : ∀ t ∈ (Ex.atom "2".toList).atoms, t ∉ (["x", "v"] : List String).map egoName := by decide +kernel
        exact this
      · have hp : ∀ a b : ℚ, Readable exSh exRd [(exX, (a, a)), (exV, (b, b))] expr →
            ∀ x : Nat → ℚ, x 0 = a → x 1 = b → Readable exSh exRd (pointDict ["x", "v"] x) expr ∧ NoVarPow (pointDict ["x", "v"] x) expr := by
          intro a b h x h0 h1
          have : pointDict ["x", "v"] x = [(exX, (a, a)), (exV, (b, b))] := by
            subst h0 h1
            have e1 : egoName "x" = exX := by decide +kernel
            have e2 : egoName "v" = exV := by decide +kernel
            simp [pointDict, e1, e2]
          rw [this]
          exact ⟨h, ⟨⟨trivial, trivial⟩, trivial⟩⟩
        have hr : ∀ a : ℚ, a = 1 ∨ a = 2 → Readable exSh exRd [(exX, (a, a)), (exV, (5, 5))] expr := by
          intro a ha
          refine ⟨?_, ?_, ?_, ?_⟩
          · have : [exX, exV].Nodup := by decide +kernel
            exact this
          · intro kv hkv
            simp only [List.mem_cons, List.not_mem_nil, or_false] at hkv
            have h : exX ≠ [] ∧ exV ≠ [] := by decide +kernel
            rcases hkv with rfl | rfl
            · exact h.1
            · exact h.2
          · intro kv hkv t ht
            have h : ∀ n ∈ [exX, exV], ∀ t ∈ expr.atoms, n <:+: t → t = n := by decide +kernel
            refine h kv.1 ?_ t ht
            simp only [List.mem_cons, List.not_mem_nil, or_false] at hkv
            rcases hkv with rfl | rfl <;> simp
          · intro kv hkv kv' hkv' v hv
            have h : ∀ n ∈ [exX, exV], ∀ v ∈ ([1, 2, 5] : List ℚ), ¬ n <:+: exSh v ∧ exRd (exSh v) = some v := by decide +kernel
            refine h kv.1 ?_ v ?_
            · simp only [List.mem_cons, List.not_mem_nil, or_false] at hkv
              rcases hkv with rfl | rfl <;> simp
            · simp only [List.mem_cons, List.not_mem_nil, or_false] at hkv'
              rcases hkv' with rfl | rfl
              · rcases ha with rfl | rfl <;> rcases hv with rfl | rfl <;> simp
              · rcases hv with rfl | rfl <;> simp
        rintro x (hx | ⟨j, hj, hx⟩)
        · refine hp 1 5 (hr 1 (.inl rfl)) x ?_ ?_
          · rw [hx]; rfl
          · rw [hx]; rfl
        · have hj0 : j = 0 := by
            have : j < 1 := hj
            omega
          subst hj0
          refine hp 2 5 (hr 2 (.inr rfl)) x ?_ ?_
          · rw [hx]; decide +kernel
          · rw [hx]; decide +kernel

namespace SrEx

/-- The single state with `x = 1` and `x2 = 5`. -/
def point : StarSet ℚ := ⟨ofList [1, 5], ⟨0, 2, fun _ _ => 0⟩, ⟨0, 0, fun _ _ => 0⟩, ofList []⟩

/-- `x = ego.x2` -/
def copyItems : List (SItem String Unit) := [⟨"x", .arith (.atom exX2), (), [exX, exX2]⟩]

/-- `x` from -1 to 3, as center 1 and `-2 ≤ α ≤ 2`. -/
def line : StarSet ℚ := ⟨ofList [1], ofRows 1 [ofList [1]], ofRows 1 [ofList [1], ofList [-1]], ofList [2, 2]⟩

/-- `x = ego.x * ego.x` -/
def squareItems : List (SItem String Unit) := [⟨"x", .arith (.mul (.atom exX) (.atom exX)), (), [exX]⟩]

end SrEx

open SrEx in
/-- **C69** fails when the name of one variable begins with the name of another: in the state with `x = 1` and `x2 = 5`, the reset of `x` to `x2`
gives `x = 1.02`. -/
theorem C69_names_violated : ∃ s', Built SrEx.point ∧
    applyResetStars exSh exRd ["x", "x2"] ["agent_mode"] ["Normal"] SrEx.point copyItems = .ok ([["Normal"]], s') ∧
    InStar SrEx.point (fun d => if d = 0 then 1 else 5) ∧ ResetTo exRd ["x", "x2"] copyItems (fun d => if d = 0 then 1 else 5) (fun _ => 5) ∧
    ¬ InStar s' (fun _ => 5) ∧ InStar s' (fun d => if d = 0 then 102 / 100 else 5) := by
  have h : ((applyResetStars exSh exRd ["x", "x2"] ["agent_mode"] ["Normal"] SrEx.point copyItems).map
      (fun r => (r.1, r.2.center.len, r.2.center.at_ 0, r.2.center.at_ 1, r.2.basis.rows, r.2.C.rows))).toOption =
      some ([["Normal"]], 2, 102 / 100, 5, 0, 0) := by decide +kernel
  match hr : applyResetStars exSh exRd ["x", "x2"] ["agent_mode"] ["Normal"] SrEx.point copyItems, h with
  | .ok (d, s'), h =>
    simp only [Except.map, Except.toOption, Option.some.injEq, Prod.mk.injEq] at h
    obtain ⟨h1, h2, h3, h4, h5, h6⟩ := h
    refine ⟨s', (built_iff _).2 ⟨.inr rfl, rfl, rfl⟩, by rw [h1], ?_, ?_, ?_, ?_⟩
    · refine ⟨fun _ => 0, fun i hi => absurd hi (by simp [SrEx.point]), fun d hd => ?_⟩
      have : d = 0 ∨ d = 1 := by have : d < 2 := hd; omega
      rcases this with rfl | rfl
      · simp [SrEx.point, ofList]
      · simp [SrEx.point, ofList]
    · intro i v hv
      match i with
      | 0 =>
        cases hv
        refine ⟨fun it hit _ => ?_, fun hno => absurd rfl (hno _ (List.mem_singleton.2 rfl))⟩
        rw [List.mem_singleton.1 hit]
        exact ⟨_, rfl, by decide +kernel⟩
      | 1 =>
        cases hv
        refine ⟨fun it hit h => ?_, fun _ => by simp⟩
        rw [List.mem_singleton.1 hit] at h
        exact absurd h (by decide)
      | i + 2 => simp at hv
    · rintro ⟨α, -, h⟩
      have := h 0 (by omega)
      rw [h3, h5] at this
      norm_num at this
    · refine ⟨fun _ => 0, fun i hi => absurd hi (by omega), fun d hd => ?_⟩
      rw [h5]
      have : d = 0 ∨ d = 1 := by omega
      rcases this with rfl | rfl
      · simp [h3]
      · simp [h4]
  | .error _, h => simp [Except.map, Except.toOption] at h

open SrEx in
/-- **C69** fails for expressions that are not affine: of the states with `x` from -1 to 3, the reset of `x` to its square makes the states from -5
to 7; the square of 3 is not among them. -/
theorem C69_square_violated : ∃ s', Built line ∧ applyResetStars exSh exRd ["x"] ["agent_mode"] ["Normal"] line squareItems = .ok ([["Normal"]], s') ∧
    InStar line (fun _ => 3) ∧ ResetTo exRd ["x"] squareItems (fun _ => 3) (fun _ => 9) ∧ ¬ InStar s' (fun _ => 9) := by
  have h : ((applyResetStars exSh exRd ["x"] ["agent_mode"] ["Normal"] line squareItems).map
      (fun r => (r.1, [r.2.center.len, r.2.basis.rows, r.2.C.rows], [r.2.center.at_ 0, r.2.basis.at_ 0 0, r.2.C.at_ 0 0, r.2.g.at_ 0]))).toOption =
      some ([["Normal"]], [1, 1, 2], [1, 3, 1, 2]) := by decide +kernel
  match hr : applyResetStars exSh exRd ["x"] ["agent_mode"] ["Normal"] line squareItems, h with
  | .ok (d, s'), h =>
    simp only [Except.map, Except.toOption, Option.some.injEq, Prod.mk.injEq, List.cons.injEq, and_true] at h
    obtain ⟨h1, ⟨h2, h4, h6⟩, h3, h5, h7, h8⟩ := h
    refine ⟨s', (built_iff _).2 ⟨.inr rfl, rfl, rfl⟩, by rw [h1], ?_, ?_, ?_⟩
    · refine ⟨fun _ => 2, fun i hi => ?_, fun d hd => ?_⟩
      · have : i = 0 ∨ i = 1 := by have : i < 2 := hi; omega
        rcases this with rfl | rfl
        · decide +kernel
        · decide +kernel
      · have : d = 0 := by have : d < 1 := hd; omega
        subst this
        decide +kernel
    · intro i v hv
      match i with
      | 0 =>
        cases hv
        refine ⟨fun it hit _ => ?_, fun hno => absurd rfl (hno _ (List.mem_singleton.2 rfl))⟩
        rw [List.mem_singleton.1 hit]
        exact ⟨_, rfl, by decide +kernel⟩
      | i + 1 => simp at hv
    · rintro ⟨α, hα, h⟩
      have e1 := h 0 (by omega)
      have e2 := hα 0 (by omega)
      rw [h4] at e1 e2
      simp only [Finset.sum_range_one] at e1 e2
      rw [h3, h5] at e1
      rw [h7, h8] at e2
      linarith
  | .error _, h => simp [Except.map, Except.toOption] at h

end Verif.Props
