import Verif.Spec.MixMono
import Verif.Proofs.Basic
import Mathlib.Algebra.Order.Ring.Rat
import Mathlib.Data.Rat.Floor
import Mathlib.Tactic.Linarith
import Mathlib.Tactic.Ring
import Mathlib.Tactic.NormNum
import Mathlib.Analysis.Calculus.Deriv.Pow
import Mathlib.Analysis.Calculus.Deriv.Add

/-!
C41: tubes of mixed-monotone systems in discrete time.
-/

set_option autoImplicit false
set_option linter.unusedSectionVars false

namespace Verif.Props
open Verif.Mix

variable {K : Type} [Field K] [LinearOrder K] [IsStrictOrderedRing K]

theorem InBox.le {lo hi a : List K} (h : InBox lo hi a) : List.Forall₂ (· ≤ ·) lo hi := by
  obtain ⟨h1, h2⟩ := h
  rw [List.forall₂_iff_get] at h1 h2 ⊢
  refine ⟨h1.1.trans h2.1, fun i hi1 hi2 => le_trans (h1.2 i hi1 (by omega)) (h2.2 i (by omega) hi2)⟩

theorem cut_eq (nv : Nat) (t : K) (x xhat : List K) (h : x.length = nv) : cut nv t x xhat = ⟨t, x, xhat⟩ := by
  simp [cut, ← h]

/-- The rectangle of two rows contains the boxes of both rows. -/
theorem rectOf_spec (r r' : Row K) (n : Nat) (h1 : r.x.length = n) (h2 : r.xhat.length = n) (h3 : r'.x.length = n) (h4 : r'.xhat.length = n) :
    ∃ lo hi, rectOf r r' = .ok [(r.time, lo), (r'.time, hi)] ∧ (∀ a, InBox r.x r.xhat a → InBox lo hi a) ∧ (∀ a, InBox r'.x r'.xhat a → InBox lo hi a) := by
  have hr : ∀ f : K → K → K, reduce4 f r.x r'.x r.xhat r'.xhat =
      .ok (List.zipWith f (List.zipWith f (List.zipWith f r.x r'.x) r.xhat) r'.xhat) := by
    intro f
    rw [reduce4, if_pos]
    omega
  refine ⟨List.zipWith min (List.zipWith min (List.zipWith min r.x r'.x) r.xhat) r'.xhat, List.zipWith max (List.zipWith max (List.zipWith max r.x r'.x) r.xhat) r'.xhat, ?_, ?_, ?_⟩
  · unfold rectOf
    rw [hr min, hr max]
    rfl
  · rintro a ⟨ha1, ha2⟩
    rw [List.forall₂_iff_get] at ha1 ha2
    constructor <;> rw [List.forall₂_iff_get]
    · refine ⟨by simp only [List.length_zipWith]; omega, fun i hi1 hi2 => ?_⟩
      simp only [List.length_zipWith] at hi1
      simp only [List.get_eq_getElem, List.getElem_zipWith]
      exact le_trans (min_le_left _ _) (le_trans (min_le_left _ _) (le_trans (min_le_left _ _) (ha1.2 i (by omega) hi2)))
    · refine ⟨by simp only [List.length_zipWith]; omega, fun i hi1 hi2 => ?_⟩
      simp only [List.length_zipWith] at hi2
      simp only [List.get_eq_getElem, List.getElem_zipWith]
      exact le_trans (ha2.2 i hi1 (by omega)) (le_trans (le_max_right _ _) (le_max_left _ _))
  · rintro a ⟨ha1, ha2⟩
    rw [List.forall₂_iff_get] at ha1 ha2
    constructor <;> rw [List.forall₂_iff_get]
    · refine ⟨by simp only [List.length_zipWith]; omega, fun i hi1 hi2 => ?_⟩
      simp only [List.length_zipWith] at hi1
      simp only [List.get_eq_getElem, List.getElem_zipWith]
      exact le_trans (min_le_left _ _) (le_trans (min_le_left _ _) (le_trans (min_le_right _ _) (ha1.2 i (by omega) hi2)))
    · refine ⟨by simp only [List.length_zipWith]; omega, fun i hi1 hi2 => ?_⟩
      simp only [List.length_zipWith] at hi2
      simp only [List.get_eq_getElem, List.getElem_zipWith]
      exact le_trans (ha2.2 i hi1 (by omega)) (le_max_right _ _)

/-- The tube from step `i` on. -/
theorem loop_spec {dec : Decomp K} {F : List K → List K → List K} {w what : List K} (nv : Nat) (hb : BoundsOn dec F nv w what)
    (hw : List.Forall₂ (· ≤ ·) w what) (dt : K) :
    ∀ (n i : Nat) (r : Row K), r.x.length = nv → List.Forall₂ (· ≤ ·) r.x r.xhat → r.time = (i : K) * dt →
      ∃ rows tube, traceLoop dec w what nv dt i n r = .ok rows ∧ (∃ rest, rows = r :: rest) ∧ tubeOf rows = .ok tube ∧ tube.length = 2 * n ∧
        ∀ (a v : Nat → List K), InBox r.x r.xhat (a i) → (∀ k, InBox w what (v k)) → (∀ k, a (k + 1) = F (a k) (v k)) →
          ∀ k < n, ∃ l u, tube[2 * k]? = some (((i + k : Nat) : K) * dt, l) ∧ tube[2 * k + 1]? = some (((i + k + 1 : Nat) : K) * dt, u) ∧
            InBox l u (a (i + k)) ∧ InBox l u (a (i + k + 1))
  | 0, i, r, _, _, _ => ⟨[r], [], rfl, ⟨[], rfl⟩, rfl, rfl, fun _ _ _ _ _ k hk => absurd hk (Nat.not_lt_zero k)⟩
  | n + 1, i, r, hx, hle, ht => by
    obtain ⟨d, dhat, hd, hdh, hl1, hl2, hF⟩ := hb r.x r.xhat hx hle
    have hxh : r.xhat.length = nv := hx ▸ hle.length_eq.symm
    -- the box of the next row is ordered: the midpoint argument is not needed, corners are in the box
    have hdd : List.Forall₂ (· ≤ ·) d dhat := InBox.le (hF r.x w ⟨List.forall₂_same.2 (fun _ _ => le_refl _), hle⟩ ⟨List.forall₂_same.2 (fun _ _ => le_refl _), hw⟩)
    have hstep : stepRow dec w what nv dt i r = .ok ⟨((i + 1 : Nat) : K) * dt, d, dhat⟩ := by
      refine (bind_ok_iff _ _ _).2 ⟨d, hd, (map_ok_iff _ _ _).2 ⟨dhat, hdh, ?_⟩⟩
      rw [cut_eq _ _ _ _ (hl1.trans hx)]
      congr 1
      push_cast
      ring
    obtain ⟨rows, tube, h1, ⟨rest, rfl⟩, h3, h4, h5⟩ := loop_spec nv hb hw dt n (i + 1) ⟨((i + 1 : Nat) : K) * dt, d, dhat⟩ (hl1.trans hx) hdd rfl
    obtain ⟨lo, hi, hr, hc1, hc2⟩ := rectOf_spec r ⟨((i + 1 : Nat) : K) * dt, d, dhat⟩ nv hx hxh (hl1.trans hx) (hl2.trans hx)
    refine ⟨r :: ⟨((i + 1 : Nat) : K) * dt, d, dhat⟩ :: rest, [(r.time, lo), (((i + 1 : Nat) : K) * dt, hi)] ++ tube, ?_, ⟨_, rfl⟩, ?_, ?_, ?_⟩
    · exact (bind_ok_iff _ _ _).2 ⟨_, hstep, (map_ok_iff _ _ _).2 ⟨_, h1, rfl⟩⟩
    · exact (bind_ok_iff _ _ _).2 ⟨_, hr, (map_ok_iff _ _ _).2 ⟨_, h3, rfl⟩⟩
    · simp only [List.length_append, List.length_cons, List.length_nil, h4]
      omega
    · intro a v ha hv hn k hk
      have hnext : InBox d dhat (a (i + 1)) := by
        rw [hn i]
        exact hF _ _ ha (hv i)
      cases k with
      | zero =>
        refine ⟨lo, hi, ?_, ?_, hc1 _ ha, hc2 _ hnext⟩
        · rw [ht]; rfl
        · rfl
      | succ k =>
        obtain ⟨l, u, g1, g2, g3, g4⟩ := h5 a v hnext hv hn k (by omega)
        refine ⟨l, u, ?_, ?_, ?_, ?_⟩
        · rw [show 2 * (k + 1) = 2 * k + 2 by ring, List.getElem?_append_right (by simp), ]
          simp only [List.length_cons, List.length_nil]
          rw [show 2 * k + 2 - (0 + 1 + 1) = 2 * k by omega, g1, show i + 1 + k = i + (k + 1) by omega]
        · rw [show 2 * (k + 1) + 1 = 2 * k + 1 + 2 by ring, List.getElem?_append_right (by simp), ]
          simp only [List.length_cons, List.length_nil]
          rw [show 2 * k + 1 + 2 - (0 + 1 + 1) = 2 * k + 1 by omega, g2, show i + 1 + k + 1 = i + (k + 1) + 1 by omega]
        · rw [show i + (k + 1) = i + 1 + k by omega]; exact g3
        · rw [show i + (k + 1) + 1 = i + 1 + k + 1 by omega]; exact g4

/-- **C41.** If the decomposition function bounds the dynamics for states of this length and these bounds of the parameters, the computation succeeds and the tube contains every trajectory
from the initial box, for every sequence of parameters within their bounds: the rectangle from step `k` to step `k + 1` contains
the states at both. The rectangles reach the horizon. -/
theorem C41_sized [FloorRing K] (dec : Decomp K) (F : List K → List K → List K) (lo hi w what : List K)
    (hb : BoundsOn dec F lo.length w what) (horizon dt : K) (hdt : 0 < dt)
    (hbox : List.Forall₂ (· ≤ ·) lo hi) (hw : List.Forall₂ (· ≤ ·) w what) :
    ∃ (n : Nat) (tube : List (K × List K)), tubeDisc lo hi w what horizon dt dec = .ok tube ∧ tube.length = 2 * n ∧ horizon ≤ n * dt ∧
      ∀ a v, Trajectory F lo hi w what a v → ∀ k < n, ∃ l u, tube[2 * k]? = some ((k : K) * dt, l) ∧ tube[2 * k + 1]? = some (((k + 1 : Nat) : K) * dt, u) ∧
        InBox l u (a k) ∧ InBox l u (a (k + 1)) := by
  obtain ⟨rows, tube, h1, _, h3, h4, h5⟩ := loop_spec lo.length hb hw dt ⌈horizon / dt⌉.toNat 0 (cut lo.length 0 lo hi)
    (by rw [cut_eq _ _ _ _ rfl]) (by rw [cut_eq _ _ _ _ rfl]; exact hbox) (by rw [cut_eq _ _ _ _ rfl]; simp)
  refine ⟨⌈horizon / dt⌉.toNat, tube, (bind_ok_iff _ _ _).2 ⟨rows, h1, h3⟩, h4, ?_, ?_⟩
  · rw [← div_le_iff₀ hdt]
    refine le_trans (Int.le_ceil _) ?_
    have := Int.self_le_toNat ⌈horizon / dt⌉
    exact_mod_cast this
  · intro a v ht k hk
    have := h5 a v (by rw [cut_eq _ _ _ _ rfl]; exact ht.init) ht.param ht.next k hk
    simpa using this

/-- **C41.** If the decomposition function bounds the dynamics, the computation succeeds and the tube contains every trajectory
from the initial box, for every sequence of parameters within their bounds: the rectangle from step `k` to step `k + 1` contains
the states at both. The rectangles reach the horizon. -/
theorem C41_disc [FloorRing K] (dec : Decomp K) (F : List K → List K → List K) (hb : Bounds dec F) (lo hi w what : List K) (horizon dt : K) (hdt : 0 < dt)
    (hbox : List.Forall₂ (· ≤ ·) lo hi) (hw : List.Forall₂ (· ≤ ·) w what) :
    ∃ (n : Nat) (tube : List (K × List K)), tubeDisc lo hi w what horizon dt dec = .ok tube ∧ tube.length = 2 * n ∧ horizon ≤ n * dt ∧
      ∀ a v, Trajectory F lo hi w what a v → ∀ k < n, ∃ l u, tube[2 * k]? = some ((k : K) * dt, l) ∧ tube[2 * k + 1]? = some (((k + 1 : Nat) : K) * dt, u) ∧
        InBox l u (a k) ∧ InBox l u (a (k + 1)) := by
  exact C41_sized dec F lo hi w what (fun x xhat _ h => hb x xhat w what h hw) horizon dt hdt hbox hw


theorem allLe_of {x y : List K} (h : List.Forall₂ (· ≤ ·) x y) : allLe x y = true := by
  induction h with
  | nil => rfl
  | cons h _ ih =>
    simp only [allLe, List.zip_cons_cons, List.all_cons, Bool.and_eq_true, decide_eq_true_eq] at ih ⊢
    exact ⟨h, ih⟩

theorem of_allLe {x y : List K} (hl : x.length = y.length) (h : allLe x y = true) : List.Forall₂ (· ≤ ·) x y := by
  rw [List.forall₂_iff_get]
  refine ⟨hl, fun i h1 h2 => ?_⟩
  simp only [allLe, List.all_eq_true, decide_eq_true_eq] at h
  have hz : (x.zip y)[i]? = some (x[i], y[i]) := by
    rw [List.getElem?_zip_eq_some]
    exact ⟨List.getElem?_eq_getElem h1, List.getElem?_eq_getElem h2⟩
  exact h _ (List.mem_of_getElem? hz)

theorem forall₂_antisymm {x y : List K} (h1 : List.Forall₂ (· ≤ ·) x y) (h2 : List.Forall₂ (· ≤ ·) y x) : x = y := by
  induction h1 with
  | nil => rfl
  | cons h _ ih =>
    rw [List.forall₂_cons] at h2
    rw [le_antisymm h h2.1, ih h2.2]

theorem inBox_append {x xhat w what a v : List K} (h1 : InBox x xhat a) (h2 : InBox w what v) : InBox (x ++ w) (xhat ++ what) (a ++ v) :=
  ⟨List.rel_append h1.1 h2.1, List.rel_append h1.2 h2.2⟩

theorem inBox_map_range {n : Nat} {f g h : Nat → K} (hfg : ∀ i < n, f i ≤ g i) (hgh : ∀ i < n, g i ≤ h i) :
    InBox ((List.range n).map f) ((List.range n).map h) ((List.range n).map g) := by
  constructor
  · rw [List.forall₂_map_left_iff, List.forall₂_map_right_iff, List.forall₂_same]
    exact fun i hi => hfg i (List.mem_range.1 hi)
  · rw [List.forall₂_map_left_iff, List.forall₂_map_right_iff, List.forall₂_same]
    exact fun i hi => hgh i (List.mem_range.1 hi)

/-- **C41**, agents with a Jacobian: with an exact minimizer the decomposition function computed from the dynamics bounds them. -/
theorem C41_decomposition (minimize : (List K → K) → List K → List K → K) (f : Nat → List K → K)
    (hmin : ∀ i, ExactFor minimize (f i)) (hmax : ∀ i, ExactFor minimize (fun z => -f i z)) :
    Bounds (decompOf minimize f) (fun a v => (List.range a.length).map (fun i => f i (a ++ v))) := by
  intro x xhat w what hx hw
  have hl1 := hx.length_eq
  have hl2 := hw.length_eq
  have hbox : List.Forall₂ (· ≤ ·) (x ++ w) (xhat ++ what) := List.rel_append hx hw
  refine ⟨(List.range x.length).map (fun i => minimize (f i) (x ++ w) (xhat ++ what)),
    (List.range x.length).map (fun i => if allLe xhat x && allLe what w then minimize (f i) (xhat ++ what) (x ++ w) else findMax minimize (f i) (x ++ w) (xhat ++ what)),
    ?_, ?_, by simp, by simp, ?_⟩
  · simp only [decompOf, hl1, hl2, and_self, if_true, allLe_of hx, allLe_of hw, Bool.and_self]
  · simp only [decompOf, hl1, hl2, and_self, if_true, allLe_of hx, allLe_of hw, Bool.and_self]
    split <;> rfl
  · intro a v ha hv
    have hla : a.length = x.length := ha.1.length_eq.symm
    dsimp only
    rw [hla]
    have hz := inBox_append ha hv
    refine inBox_map_range (fun i _ => (hmin i _ _ hbox).1 _ hz) (fun i _ => ?_)
    split
    · rename_i hd
      rw [Bool.and_eq_true] at hd
      have e1 := forall₂_antisymm hx (of_allLe hl1.symm hd.1)
      have e2 := forall₂_antisymm hw (of_allLe hl2.symm hd.2)
      subst e1
      subst e2
      obtain ⟨z, hz', e⟩ := (hmin i _ _ hbox).2
      rw [e, ← forall₂_antisymm hz'.1 hz'.2, ← forall₂_antisymm hz.1 hz.2]
    · have := (hmax i _ _ hbox).1 _ hz
      unfold findMax
      linarith

/-- A minimizer that is exact for a decreasing function of the first coordinate and its negation: the smaller value at the two corners. -/
example : (∀ i : Nat, ExactFor (fun g lo hi => min (g lo) (g hi)) ((fun _ (z : List ℚ) => -z.headD 0) i)) ∧
    ∀ i : Nat, ExactFor (fun g lo hi => min (g lo) (g hi)) (fun z => -(fun (_ : Nat) (z : List ℚ) => -z.headD 0) i z) := by
  have hhead : ∀ (a b : List ℚ), List.Forall₂ (· ≤ ·) a b → a.headD 0 ≤ b.headD 0 := by
    intro a b h
    cases h with
    | nil => simp
    | cons h _ => simpa using h
  constructor
  · intro _ lo hi h
    have := hhead _ _ h
    refine ⟨fun z hz => le_trans (min_le_right _ _) (neg_le_neg (hhead _ _ hz.2)), hi, ⟨h, List.forall₂_same.2 (fun _ _ => le_refl _)⟩, ?_⟩
    exact min_eq_right (neg_le_neg this)
  · intro _ lo hi h
    have := hhead _ _ h
    refine ⟨fun z hz => le_trans (min_le_left _ _) ?_, lo, ⟨List.forall₂_same.2 (fun _ _ => le_refl _), h⟩, ?_⟩
    · simpa using hhead _ _ hz.1
    · exact min_eq_left (by simpa using this)

namespace MixEx

/-- `x⁺ = w - x`, which is decreasing in the state. -/
def dec : Decomp ℚ := fun _ w xhat _ => .ok (List.zipWith (fun a b => b - a) xhat w)

end MixEx

/-- The hypotheses hold: the tube for `x⁺ = w - x` with `x` in `[1, 2]` and `w` in `[0, 1]`. -/
example : tubeDisc [1] [2] [0] [1] 2 1 MixEx.dec = .ok [(0, [-2]), (1, [2]), (1, [-2]), (2, [3])] := by decide +kernel

theorem forall₂_sub {a b c d : List ℚ} (h : List.Forall₂ (· ≤ ·) a b) (h2 : List.Forall₂ (· ≤ ·) c d) :
    List.Forall₂ (· ≤ ·) (List.zipWith (fun x y => y - x) b c) (List.zipWith (fun x y => y - x) a d) := by
  induction h generalizing c d with
  | nil => simp
  | cons h _ ih =>
    cases h2 with
    | nil => simp
    | cons h2 h3 =>
      simp only [List.zipWith_cons_cons]
      exact .cons (by linarith) (ih h3)

/-- A decomposition function that bounds its dynamics (one dimension). -/
example : Bounds (fun x w xhat what => if x.length = 1 ∧ w.length = 1 ∧ xhat.length = 1 ∧ what.length = 1 then MixEx.dec x w xhat what else .ok (x.map (fun _ => 0)))
    (fun a v => if a.length = 1 ∧ v.length = 1 then List.zipWith (fun x y => y - x) a v else a.map (fun _ => 0)) := by
  intro x xhat w what hx hw
  have e1 := hx.length_eq
  have e2 := hw.length_eq
  by_cases h : x.length = 1 ∧ w.length = 1
  · have hA : x.length = 1 ∧ w.length = 1 ∧ xhat.length = 1 ∧ what.length = 1 := by omega
    have hB : xhat.length = 1 ∧ what.length = 1 ∧ x.length = 1 ∧ w.length = 1 := by omega
    refine ⟨List.zipWith (fun a b => b - a) xhat w, List.zipWith (fun a b => b - a) x what, if_pos hA, if_pos hB,
      by simp only [List.length_zipWith]; omega, by simp only [List.length_zipWith]; omega, ?_⟩
    intro a v ha hv
    have : a.length = 1 ∧ v.length = 1 := ⟨by rw [← ha.1.length_eq]; exact h.1, by rw [← hv.1.length_eq]; exact h.2⟩
    dsimp only
    rw [if_pos this]
    exact ⟨forall₂_sub ha.2 hv.1, forall₂_sub ha.1 hv.2⟩
  · have hA : ¬ (x.length = 1 ∧ w.length = 1 ∧ xhat.length = 1 ∧ what.length = 1) := by omega
    have hB : ¬ (xhat.length = 1 ∧ what.length = 1 ∧ x.length = 1 ∧ w.length = 1) := by omega
    refine ⟨x.map (fun _ => 0), xhat.map (fun _ => 0), if_neg hA, if_neg hB, by simp, by simp [e1], ?_⟩
    intro a v ha hv
    have : ¬ (a.length = 1 ∧ v.length = 1) := by rw [← ha.1.length_eq, ← hv.1.length_eq]; exact h
    dsimp only
    rw [if_neg this]
    exact ⟨List.forall₂_map_left_iff.2 (List.forall₂_map_right_iff.2 (List.Forall₂.imp (fun _ _ _ => le_refl _) ha.1)),
      List.forall₂_map_left_iff.2 (List.forall₂_map_right_iff.2 (List.Forall₂.imp (fun _ _ _ => le_refl _) ha.2))⟩

/-- The dynamics `x⁺ = -x²` (component 0). -/
noncomputable def negSquare : Nat → List ℝ → ℝ := fun _ z => -(z.headD 0) ^ 2

/-- **C41 fails** for agents with a Jacobian and a minimizer that stops at its starting point, the lower corner of the box, when the derivative is zero there
(as gradient methods do): for `x⁺ = -x²` and the initial set `[0, 1]` the tube is `[0, 1]`, and the trajectory from 1 to -1 leaves it. -/
theorem C41_stationary_violated (minimize : (List ℝ → ℝ) → List ℝ → List ℝ → ℝ)
    (hstop : ∀ (g : List ℝ → ℝ) (lo hi : ℝ), deriv (fun t => g [t]) lo = 0 → minimize g [lo] [hi] = g [lo]) :
    tubeDisc [0] [1] [] [] 1 1 (decompOf minimize negSquare) = .ok [(0, [0]), (1, [1])] ∧
    ∃ a v, Trajectory (fun a v => (List.range a.length).map (fun i => negSquare i (a ++ v))) [0] [1] [] [] a v ∧ a 1 = [-1] ∧ ¬ InBox [0] [1] (a 1) := by
  have h1 : minimize (negSquare 0) [0] [1] = 0 := by
    rw [hstop]
    · simp [negSquare]
    · have : deriv (fun t : ℝ => -t ^ 2) 0 = -deriv (fun t : ℝ => t ^ 2) 0 := by simp [← Pi.neg_def]
      simp [negSquare, this]
  have h2 : minimize (fun z => -negSquare 0 z) [0] [1] = 0 := by
    rw [hstop]
    · simp [negSquare]
    · simp [negSquare]
  constructor
  · have hn : ⌈(1 : ℝ) / 1⌉.toNat = 1 := by norm_num
    have d1 : decompOf minimize negSquare [0] [] [1] [] = .ok [0] := by
      simp [decompOf, allLe, List.range_succ, h1]
    have d2 : decompOf minimize negSquare [1] [] [0] [] = .ok [0] := by
      have : ¬ ((1 : ℝ) ≤ 0) := by norm_num
      simp [decompOf, allLe, List.range_succ, findMax, h2, this]
    unfold tubeDisc
    rw [hn]
    have hs : stepRow (decompOf minimize negSquare) [] [] 1 1 0 (cut 1 0 [0] [1]) = .ok ⟨1, [0], [0]⟩ := by
      refine (bind_ok_iff _ _ _).2 ⟨[0], d1, (map_ok_iff _ _ _).2 ⟨[0], d2, ?_⟩⟩
      simp [cut]
    refine (bind_ok_iff _ _ _).2 ⟨[cut 1 0 [0] [1], ⟨1, [0], [0]⟩], ?_, ?_⟩
    · exact (bind_ok_iff _ _ _).2 ⟨_, hs, rfl⟩
    · simp [tubeOf, rectOf, reduce4, cut, Except.bind, Except.map]
  · refine ⟨fun k => Nat.rec [1] (fun _ b => (List.range b.length).map (fun i => negSquare i (b ++ []))) k, fun _ => [], ⟨?_, fun _ => ⟨.nil, .nil⟩, fun _ => rfl⟩, ?_, ?_⟩
    · exact ⟨.cons (by norm_num) .nil, .cons (by norm_num) .nil⟩
    · simp [negSquare]
    · rintro ⟨h, -⟩
      have e : (Nat.rec [1] (fun _ b => (List.range b.length).map (fun i => negSquare i (b ++ []))) 1 : List ℝ) = [-1] := by simp [negSquare]
      dsimp only at h
      rw [e, List.forall₂_cons] at h
      have := h.1
      norm_num at this

end Verif.Props
