import Verif.Proofs.Star
import Mathlib.Tactic.NormNum
import Mathlib.Tactic.IntervalCases

/-! C42-C44, C61, C62: star sets. -/

set_option autoImplicit false
set_option linter.unusedSectionVars false

namespace Verif.Props

open Verif Verif.Stars Finset

section
variable {K : Type} [Field K] [LinearOrder K]

/-- **C42** (reset, continuous post). Applying an affine map to a star set (`apply_reset`, `post_cont`) succeeds, and the points of the
result are exactly the images of the points. -/
theorem C42_affine (s : StarSet K) (hs : Built s) (f : Vec K → Except String (Vec K)) (M : Nat → Nat → K) (b : Nat → K)
    (hf : ∀ x : Vec K, x.len = s.center.len → ∃ y, f x = .ok y ∧ y.len = s.center.len ∧ ∀ d < s.center.len, y.at_ d = affine s.center.len M b x.at_ d) :
    ∃ s', applyMap f s = .ok s' ∧ s'.center.len = s.center.len ∧
      ∀ y : Nat → K, InStar s' y ↔ ∃ x, InStar s x ∧ ∀ d < s.center.len, y d = affine s.center.len M b x d := by
  obtain ⟨h1, h2, h3⟩ := (built_iff s).1 hs
  obtain ⟨c, hc, hcl, hca⟩ := hf s.center rfl
  obtain ⟨rows, hr, hrl, hrow⟩ := mapM_range_ex (newVec f s c)
    (fun i v => ∀ d < s.center.len, v.at_ d = affine s.center.len M b (fun k => s.center.at_ k + s.basis.at_ i k) d - affine s.center.len M b s.center.at_ d)
    s.basis.rows (by
      intro i hi
      have hl : s.center.len = s.basis.cols := by rcases h1 with h1 | h1 <;> omega
      obtain ⟨y, hy, hyl, hya⟩ := hf ⟨s.center.len, fun k => s.center.at_ k + s.basis.at_ i k⟩ rfl
      exact ⟨_, newVec_ok f s c i _ y hl rfl hy hyl hcl, fun d hd => by dsimp only; rw [hya d hd, hca d hd]⟩)
  refine ⟨⟨c, ofRows s.basis.cols rows, s.C, s.g⟩, ?_, hcl, ?_⟩
  · unfold applyMap
    rw [hc]
    simp only [Except.bind]
    rw [hr]
    simp only [superposition]
    rw [if_pos (by simp [ofRows, hrl]), new_ok_iff]
    refine ⟨?_, ?_, h3, rfl⟩
    · simp only [ofRows, hrl, hcl]; exact h1
    · simp only [ofRows, hrl]; exact h2
  · intro y
    unfold InStar
    simp only [hcl]
    have hm : (ofRows s.basis.cols rows).rows = s.basis.rows := by simp [ofRows, hrl]
    rw [hm]
    refine image_iff _ _ _ M b _ _ _ _ _ _ _ hca (fun j hj d hd => ?_)
    obtain ⟨v, hv, hva⟩ := hrow j hj
    rw [ofRows_at _ _ _ _ _ hv, hva d hd]

/-- **C42** (tube of a linear system). If the states of the simulation at every time are affine functions of the initial state, the tube has
one star per time, and its points are exactly the states reached from the points of the initial star. -/
theorem C42_linear_tube (s : StarSet K) (hs : Built s) (sim : Vec K → Except String (List (K × Vec K))) (L : Nat) (T : Nat → K)
    (M : Nat → Nat → Nat → K) (b : Nat → Nat → K)
    (hsim : ∀ x : Vec K, x.len = s.center.len → ∃ tr, sim x = .ok tr ∧ tr.length = L ∧ ∀ k < L, ∃ y : Vec K, tr[k]? = some (T k, y) ∧
      y.len = s.center.len ∧ ∀ d < s.center.len, y.at_ d = affine s.center.len (M k) (b k) x.at_ d) :
    ∃ tube, reachLinear sim s = .ok tube ∧ tube.length = L ∧ ∀ k < L, ∃ s' : StarSet K, tube[k]? = some (T k, s') ∧ s'.center.len = s.center.len ∧
      ∀ y : Nat → K, InStar s' y ↔ ∃ x, InStar s x ∧ ∀ d < s.center.len, y d = affine s.center.len (M k) (b k) x d := by
  obtain ⟨h1, h2, h3⟩ := (built_iff s).1 hs
  obtain ⟨cs, hcs, hcl, hck⟩ := hsim s.center rfl
  have lens : ∀ (tr : List (K × Vec K)), tr.length = L → (∀ k < L, ∃ y : Vec K, tr[k]? = some (T k, y) ∧ y.len = s.center.len) →
      ∀ (k : Nat) (x : K × Vec K), tr[k]? = some x → x.2.len = s.center.len := by
    intro tr hl h k x hx
    have hk : k < L := by
      rw [← hl]; by_contra hc; rw [List.getElem?_eq_none (by omega)] at hx; cases hx
    obtain ⟨y, hy, hyl⟩ := h k hk
    rw [hy] at hx; injection hx with hx; subst hx; exact hyl
  obtain ⟨diffs, hd, hdl, hdk⟩ := mapM_range_ex (fun i => (vadd s.center (s.basis.row i)).bind fun x => (sim x).bind fun xs => diffRows xs cs)
    (fun i (ds : List (Vec K)) => ∀ k < L, ∃ v : Vec K, ds[k]? = some v ∧ v.len = s.center.len ∧ ∀ d < s.center.len,
      v.at_ d = affine s.center.len (M k) (b k) (fun e => s.center.at_ e + s.basis.at_ i e) d - affine s.center.len (M k) (b k) s.center.at_ d)
    s.basis.rows (by
      intro i hi
      have hl : s.center.len = s.basis.cols := by rcases h1 with h1 | h1 <;> omega
      obtain ⟨xs, hxs, hxl, hxk⟩ := hsim ⟨s.center.len, fun e => s.center.at_ e + s.basis.at_ i e⟩ rfl
      obtain ⟨ds, e1, e2, e3⟩ := diffRows_ok s.center.len xs cs (by omega)
        (lens xs hxl (fun k hk => by obtain ⟨y, a, b, -⟩ := hxk k hk; exact ⟨y, a, b⟩))
        (lens cs hcl (fun k hk => by obtain ⟨y, a, b, -⟩ := hck k hk; exact ⟨y, a, b⟩))
      refine ⟨ds, ?_, ?_⟩
      · have hv : vadd s.center (s.basis.row i) = .ok ⟨s.center.len, fun e => s.center.at_ e + s.basis.at_ i e⟩ := by
          unfold vadd; rw [if_pos (by exact hl)]; rfl
        rw [hv]
        simp only [Except.bind]
        rw [hxs]
        exact e1
      · intro k hk
        obtain ⟨v, a1, a2, a3⟩ := e3 k (by omega)
        obtain ⟨y, b1, b2, b3⟩ := hxk k hk
        obtain ⟨c, c1, c2, c3⟩ := hck k hk
        exact ⟨v, a1, a2, fun d hd => by rw [a3 _ _ b1 c1 d]; dsimp only; rw [b3 d hd, c3 d hd]⟩)
  obtain ⟨tube, ht, htl, htk⟩ := mapM_range_ex (linearEntry s cs diffs)
    (fun k (e : K × StarSet K) => e.1 = T k ∧ e.2.center.len = s.center.len ∧
      ∀ y : Nat → K, InStar e.2 y ↔ ∃ x, InStar s x ∧ ∀ d < s.center.len, y d = affine s.center.len (M k) (b k) x d) cs.length (by
      intro k hk
      rw [hcl] at hk
      obtain ⟨c, c1, c2, c3⟩ := hck k hk
      obtain ⟨st, f1, f2, f3, f4, f5, f6⟩ := linearEntry_ok s hs cs diffs k _ c1 c2 hdl (fun j hj => by
        obtain ⟨ds, g1, g2⟩ := hdk j hj
        obtain ⟨v, g3, g4, -⟩ := g2 k hk
        exact ⟨ds, v, g1, g3, g4⟩)
      refine ⟨_, f1, rfl, by rw [f2]; exact c2, ?_⟩
      intro y
      unfold InStar
      dsimp only
      rw [f2, f3, f4, f5]
      dsimp only
      rw [c2]
      refine image_iff _ _ _ (M k) (b k) _ _ _ _ _ _ _ c3 (fun j hj d hd => ?_)
      obtain ⟨ds, g1, g2⟩ := hdk j hj
      obtain ⟨v, g3, g4, g5⟩ := g2 k hk
      rw [f6 j ds v g1 g3 d, g5 d hd])
  refine ⟨tube, ?_, by omega, ?_⟩
  · unfold reachLinear
    rw [hcs]
    simp only [Except.bind]
    simp only [Except.bind] at hd
    rw [hd]
    exact ht
  · intro k hk
    obtain ⟨⟨t, s'⟩, e1, e2, e3, e4⟩ := htk k (by omega)
    exact ⟨s', by rw [e1]; dsimp only at e2; rw [e2], e3, e4⟩

/-- **C42** (from a rectangle). The star set of a rectangle has exactly the points of the rectangle. -/
theorem C42_from_rectangle (box : List (K × K) → Except String (Mat K × Vec K)) (hbox : BoxCorrect box) (lo hi : List K) (s : StarSet K)
    (h : rectToStar box lo hi = .ok s) : Built s ∧ s.center.len = lo.length ∧ lo.length = hi.length ∧
      ∀ x : Nat → K, InStar s x ↔ ∀ (d : Nat) (l u : K), lo[d]? = some l → hi[d]? = some u → l ≤ x d ∧ x d ≤ u := by
  unfold rectToStar at h
  split at h
  · cases h
  next hl =>
  obtain ⟨p, hp, h⟩ := bind_ok h
  obtain ⟨h1, h2, h3, h4⟩ := fromPoly_spec _ _ _ h
  obtain ⟨h5, h6⟩ := hbox _ _ _ hp
  have hl' : lo.length = hi.length := by omega
  refine ⟨h1, by rw [h2, h5]; simp [hl'], hl', fun x => ?_⟩
  rw [h4, h6]
  constructor
  · intro h d l u h1 h2
    exact h d (l, u) (by rw [List.getElem?_zip_eq_some]; exact ⟨h1, h2⟩)
  · intro h d r hr
    rw [List.getElem?_zip_eq_some] at hr
    exact h d r.1 r.2 hr.1 hr.2

section
variable [IsStrictOrderedRing K]

/-- **C42** (rectangle). The rectangle of a star set contains all its points, and every one of its sides touches the star set. -/
theorem C42_rectangle (lp : Bool → Vec K → Mat K → Vec K → LPRes K) (hlp : LPCorrect lp) (s : StarSet K) (hs : Built s) (r : List (K × K))
    (h : overapprox lp s = .ok r) : r.length = s.center.len ∧ ∀ d < s.center.len, ∃ lo hi, r[d]? = some (lo, hi) ∧
      (∀ x, InStar s x → lo ≤ x d ∧ x d ≤ hi) ∧ (∃ x, InStar s x ∧ x d = lo) ∧ (∃ x, InStar s x ∧ x d = hi) := by
  obtain ⟨hl, hk⟩ := (mapM_range_ok _ _ _).1 h
  refine ⟨hl, fun d hd => ?_⟩
  obtain ⟨⟨lo, hi⟩, e1, e2⟩ := hk d hd
  exact ⟨lo, hi, e1, getMaxMin_spec lp hlp s hs d hd _ e2⟩

/-- **C42** (combination). The combination of star sets contains all their points, and it is the smallest rectangle that does. -/
theorem C42_combine (lp : Bool → Vec K → Mat K → Vec K → LPRes K) (hlp : LPCorrect lp) (box : List (K × K) → Except String (Mat K × Vec K))
    (hbox : BoxCorrect box) (n : Nat) (ss : List (StarSet K)) (hs : ∀ s ∈ ss, Built s ∧ s.center.len = n) (c : StarSet K) (h : combineStars lp box ss = .ok c) :
    Built c ∧ c.center.len = n ∧ (∀ s ∈ ss, ∀ x, InStar s x → InStar c x) ∧
    ∀ y, InStar c y → ∀ d < n, (∃ s ∈ ss, ∃ x, InStar s x ∧ x d ≤ y d) ∧ (∃ s ∈ ss, ∃ x, InStar s x ∧ y d ≤ x d) := by
  cases ss with
  | nil => cases h
  | cons s ss =>
    unfold combineStars at h
    obtain ⟨dims, hd, h⟩ := bind_ok h
    obtain ⟨p, hp, h⟩ := bind_ok h
    obtain ⟨h1, h2, h3, h4⟩ := fromPoly_spec _ _ _ h
    obtain ⟨h5, h6⟩ := hbox _ _ _ hp
    obtain ⟨hl, hk⟩ := (mapM_range_ok _ _ _).1 hd
    rw [(hs s (by simp)).2] at hl hk
    have key : ∀ d < n, ∃ b, dims[d]? = some b ∧ (∀ s' ∈ s :: ss, ∃ q, getMaxMin lp s' d = .ok q ∧ b.1 ≤ q.1 ∧ q.2 ≤ b.2) ∧
        (∃ s' ∈ s :: ss, ∃ q, getMaxMin lp s' d = .ok q ∧ b.1 = q.1) ∧ (∃ s' ∈ s :: ss, ∃ q, getMaxMin lp s' d = .ok q ∧ b.2 = q.2) := by
      intro d hdn
      obtain ⟨b, e1, e2⟩ := hk d hdn
      obtain ⟨r, e3, e4⟩ := bind_ok e2
      obtain ⟨b', rfl, g1, -, g3, g4⟩ := combineDim_spec lp d (s :: ss) none r e3 (Or.inl (by simp))
      injection e4 with e4; subst e4
      exact ⟨b', e1, g1, by simpa using g3, by simpa using g4⟩
    refine ⟨h1, by rw [h2, h5, hl], ?_, ?_⟩
    · intro s' hs' x hx
      rw [h4, h6]
      intro d r hr
      have hdn : d < n := by rw [← hl]; by_contra hc; rw [List.getElem?_eq_none (by omega)] at hr; cases hr
      obtain ⟨b, e1, e2, -⟩ := key d hdn
      rw [e1] at hr; injection hr with hr; subst hr
      obtain ⟨q, q1, q2, q3⟩ := e2 s' hs'
      have := (getMaxMin_spec lp hlp s' (hs s' hs').1 d (by rw [(hs s' hs').2]; exact hdn) q q1).1 x hx
      exact ⟨le_trans q2 this.1, le_trans this.2 q3⟩
    · intro y hy d hdn
      rw [h4, h6] at hy
      obtain ⟨b, e1, -, ⟨s1, hs1, q1, hq1, e2⟩, ⟨s2, hs2, q2, hq2, e3⟩⟩ := key d hdn
      obtain ⟨y1, y2⟩ := hy d b e1
      obtain ⟨-, ⟨x1, hx1, hxe1⟩, -⟩ := getMaxMin_spec lp hlp s1 (hs s1 hs1).1 d (by rw [(hs s1 hs1).2]; exact hdn) q1 hq1
      obtain ⟨-, -, ⟨x2, hx2, hxe2⟩⟩ := getMaxMin_spec lp hlp s2 (hs s2 hs2).1 d (by rw [(hs s2 hs2).2]; exact hdn) q2 hq2
      exact ⟨⟨s1, hs1, x1, hx1, by rw [hxe1, ← e2]; exact y1⟩, ⟨s2, hs2, x2, hx2, by rw [hxe2, ← e3]; exact y2⟩⟩

/-- **C42** (tube through rectangles). Without the option `pca`, the tube is that of a rectangle that contains the star set, and its stars
have exactly the points of the rectangles of that tube. -/
theorem C42_rectangle_tube (lp : Bool → Vec K → Mat K → Vec K → LPRes K) (hlp : LPCorrect lp) (box : List (K × K) → Except String (Mat K × Vec K))
    (hbox : BoxCorrect box) (bloat : List K → List K → Except String (List (K × List K))) (s : StarSet K) (hs : Built s) (stars : List (K × StarSet K))
    (h : reachRect lp box bloat s = .ok stars) : ∃ (lo hi : List K) (tube : List (K × List K)), bloat lo hi = .ok tube ∧
      lo.length = s.center.len ∧ hi.length = s.center.len ∧
      (∀ x, InStar s x → ∀ (d : Nat) (l u : K), lo[d]? = some l → hi[d]? = some u → l ≤ x d ∧ x d ≤ u) ∧
      tube.length = 2 * stars.length ∧ ∀ (k : Nat) (e : K × StarSet K), stars[k]? = some e → ∃ a b, tube[2 * k]? = some a ∧ tube[2 * k + 1]? = some b ∧ e.1 = a.1 ∧
        ∀ x : Nat → K, InStar e.2 x ↔ ∀ (d : Nat) (l u : K), a.2[d]? = some l → b.2[d]? = some u → l ≤ x d ∧ x d ≤ u := by
  unfold reachRect at h
  obtain ⟨r, hr, h⟩ := bind_ok h
  obtain ⟨tube, ht, h⟩ := bind_ok h
  obtain ⟨c1, c2⟩ := C42_rectangle lp hlp s hs r hr
  obtain ⟨hl, hk⟩ := (mapM_range_ok _ _ _).1 h
  refine ⟨_, _, tube, ht, by simp [c1], by simp [c1], ?_, ?_, ?_⟩
  · intro x hx d l u hl' hu
    rw [List.getElem?_map, Option.map_eq_some_iff] at hl' hu
    obtain ⟨q, hq, rfl⟩ := hl'
    obtain ⟨q', hq', rfl⟩ := hu
    rw [hq] at hq'; injection hq' with hq'; subst hq'
    have hd : d < s.center.len := by rw [← c1]; by_contra hc; rw [List.getElem?_eq_none (by omega)] at hq; cases hq
    obtain ⟨lo, hi, e1, e2, -⟩ := c2 d hd
    rw [hq] at e1; injection e1 with e1; subst e1
    exact e2 x hx
  · rw [hl]
    by_cases h0 : (tube.length + 1) / 2 = 0
    · omega
    · obtain ⟨y, -, e⟩ := hk ((tube.length + 1) / 2 - 1) (by omega)
      unfold pairStar at e
      split at e
      · next a b ha hb =>
        have : 2 * ((tube.length + 1) / 2 - 1) + 1 < tube.length := by
          by_contra hc; rw [List.getElem?_eq_none (by omega)] at hb; cases hb
        omega
      · cases e
  · intro k e he
    have hkl : k < (tube.length + 1) / 2 := by rw [← hl]; by_contra hc; rw [List.getElem?_eq_none (by omega)] at he; cases he
    obtain ⟨y, y1, y2⟩ := hk k hkl
    rw [he] at y1; injection y1 with y1; subst y1
    unfold pairStar at y2
    split at y2
    · next a b ha hb =>
      obtain ⟨st, e1, e2⟩ := (map_ok_iff _ _ _).1 y2
      subst e2
      obtain ⟨-, -, -, e3⟩ := C42_from_rectangle box hbox _ _ _ e1
      exact ⟨a, b, ha, hb, rfl, e3⟩
    · cases y2

/-- **C43** (emptiness, what is computed). `is_empty` decides whether there are coefficients that satisfy the inequalities *and are not
negative*. -/
theorem C43_empty_nonneg (lp : Bool → Vec K → Mat K → Vec K → LPRes K) (hlp : LPCorrect lp) (s : StarSet K) (hs : Built s) (r : Bool)
    (h : isEmpty lp s = .ok r) :
    r = true ↔ ¬ ∃ α, Sat s.C.rows s.basis.rows s.C.at_ s.g.at_ α ∧ ∀ j < s.basis.rows, 0 ≤ α j := by
  obtain ⟨h1, h2, h3⟩ := (built_iff s).1 hs
  unfold isEmpty isFeasible callLP at h
  obtain ⟨f, hf, rfl⟩ := (map_ok_iff _ _ _).1 h
  obtain ⟨q, hq, hf⟩ := bind_ok hf
  split at hq
  swap
  · cases hq
  next hsh =>
  injection hq with hq; subst hq
  have e : ∀ α, LPFeas true s.C s.g α ↔ (Sat s.C.rows s.basis.rows s.C.at_ s.g.at_ α ∧ ∀ j < s.basis.rows, 0 ≤ α j) := by
    intro α; unfold LPFeas; rw [h2]; simp
  split at hf
  · next h0 =>
    injection hf with hf; subst hf
    obtain ⟨x, hx⟩ := hlp.zero _ _ _ _ hsh.1 hsh.2 h0
    obtain ⟨-, f1, -⟩ := hlp.sol _ _ _ _ _ hsh.1 hsh.2 hx
    simp only [Bool.not_true, Bool.false_eq_true, false_iff, not_not]
    exact ⟨x.at_, (e _).1 f1⟩
  · split at hf
    · next h0 =>
      injection hf with hf; subst hf
      have := hlp.two _ _ _ _ hsh.1 hsh.2 h0
      simp only [Bool.not_false, true_iff]
      rintro ⟨α, hα⟩
      exact this ⟨α, (e _).2 hα⟩
    · cases hf

/-- **C43** (emptiness, answer false). A star set that is reported as not empty has a point. -/
theorem C43_nonempty (lp : Bool → Vec K → Mat K → Vec K → LPRes K) (hlp : LPCorrect lp) (s : StarSet K) (hs : Built s)
    (h : isEmpty lp s = .ok false) : ∃ x, InStar s x := by
  have := C43_empty_nonneg lp hlp s hs false h
  simp only [Bool.false_eq_true, false_iff, not_not] at this
  obtain ⟨α, hα, -⟩ := this
  exact ⟨_, α, hα, fun d _ => rfl⟩

/-- **C43** (emptiness, partial). If the inequalities only allow coefficients that are not negative, a star set that is reported as empty has no
point. Missing: star sets whose coefficients may be negative (`C43_empty_violated`). -/
theorem C43_empty_partial (lp : Bool → Vec K → Mat K → Vec K → LPRes K) (hlp : LPCorrect lp) (s : StarSet K) (hs : Built s)
    (hpos : ∀ α, Sat s.C.rows s.basis.rows s.C.at_ s.g.at_ α → ∀ j < s.basis.rows, 0 ≤ α j)
    (h : isEmpty lp s = .ok true) : ¬ ∃ x, InStar s x := by
  have := (C43_empty_nonneg lp hlp s hs true h).1 rfl
  rintro ⟨x, α, hα, -⟩
  exact this ⟨α, hα, hpos α hα⟩

/-- **C44** (what is computed). Intersecting with a half space `H x ≤ r` keeps the points `center + Σ α j * v j` for which
`center + Σ α j * w j` is in the half space, where `w j` is the `j`-th *column* of the basis matrix. -/
theorem C44_transposed (s s' : StarSet K) (hs : Built s) (H : Vec K) (r : K) (h : intersectionHalfspace s H r = .ok s') (x : Nat → K) :
    s.basis.rows = s.center.len ∧ H.len = s.center.len ∧ (InStar s' x ↔ ∃ α, Sat s.C.rows s.basis.rows s.C.at_ s.g.at_ α ∧
      (∀ d < s.center.len, x d = s.center.at_ d + ∑ j ∈ range s.basis.rows, α j * s.basis.at_ j d) ∧
      InHalf s.center.len H.at_ r (fun d => s.center.at_ d + ∑ j ∈ range s.basis.rows, α j * s.basis.at_ d j)) := by
  unfold intersectionHalfspace at h
  split at h
  · cases h
  obtain ⟨-, h2, h3, h4, h5, h6, h7⟩ := intersectionPoly_spec s s' hs _ _ h
  dsimp only at h5 h6 h7
  refine ⟨by omega, h6, ?_⟩
  unfold InStar Point
  rw [h2, h3]
  rw [h3] at h7
  refine exists_congr fun α => ?_
  rw [h7 α]
  have e : (∀ i < 1, ∑ j ∈ range s.basis.rows, (∑ k ∈ range H.len, H.at_ k * s.basis.at_ k j) * α j ≤ r - ∑ k ∈ range H.len, H.at_ k * s.center.at_ k) ↔
      InHalf s.center.len H.at_ r (fun d => s.center.at_ d + ∑ j ∈ range s.basis.rows, α j * s.basis.at_ d j) := by
    unfold InHalf
    have e1 : ∑ d ∈ range s.center.len, H.at_ d * (s.center.at_ d + ∑ j ∈ range s.basis.rows, α j * s.basis.at_ d j) =
        ∑ d ∈ range s.center.len, H.at_ d * s.center.at_ d + ∑ j ∈ range s.basis.rows, (∑ k ∈ range s.center.len, H.at_ k * s.basis.at_ k j) * α j := by
      simp only [mul_add, sum_add_distrib, mul_sum, sum_mul]
      congr 1
      rw [sum_comm]
      exact sum_congr rfl (fun j _ => sum_congr rfl (fun k _ => by ring))
    rw [e1, h6]
    constructor
    · intro h; have := h 0 (by omega); linarith
    · intro h i _; linarith
  rw [e]
  tauto

/-- **C44** (partial). If the basis is symmetric (as for the star set of a rectangle), intersecting with a half space yields exactly the points
in the half space. Missing: other bases (`C44_violated`, `C44_shape_violated`). -/
theorem C44_symmetric_partial (s s' : StarSet K) (hs : Built s) (H : Vec K) (r : K)
    (hsym : ∀ i < s.center.len, ∀ j < s.center.len, s.basis.at_ i j = s.basis.at_ j i)
    (h : intersectionHalfspace s H r = .ok s') (x : Nat → K) : InStar s' x ↔ InStar s x ∧ InHalf s.center.len H.at_ r x := by
  obtain ⟨h1, h2, h3⟩ := C44_transposed s s' hs H r h x
  rw [h3]
  have e : ∀ α : Nat → K, (∀ d < s.center.len, x d = s.center.at_ d + ∑ j ∈ range s.basis.rows, α j * s.basis.at_ j d) →
      (InHalf s.center.len H.at_ r (fun d => s.center.at_ d + ∑ j ∈ range s.basis.rows, α j * s.basis.at_ d j) ↔ InHalf s.center.len H.at_ r x) := by
    intro α hα
    unfold InHalf
    have : ∑ d ∈ range s.center.len, H.at_ d * (s.center.at_ d + ∑ j ∈ range s.basis.rows, α j * s.basis.at_ d j) = ∑ d ∈ range s.center.len, H.at_ d * x d := by
      refine sum_congr rfl (fun d hd => ?_)
      rw [hα d (mem_range.1 hd)]
      congr 2
      exact sum_congr rfl (fun j hj => by rw [hsym d (mem_range.1 hd) j (by rw [← h1]; exact mem_range.1 hj)])
    rw [this]
  constructor
  · rintro ⟨α, a1, a2, a3⟩
    exact ⟨⟨α, a1, a2⟩, (e α a2).1 a3⟩
  · rintro ⟨⟨α, a1, a2⟩, a3⟩
    exact ⟨α, a1, a2, (e α a2).2 a3⟩

/-- **C44** (violated). With as many basis vectors as dimensions the only possibility: otherwise the intersection raises an exception. -/
theorem C44_shape_violated (s : StarSet K) (hs : Built s) (H : Vec K) (r : K) (hm : s.basis.rows ≠ s.center.len) :
    ∃ e, intersectionHalfspace s H r = .error e := by
  cases h : intersectionHalfspace s H r with
  | error e => exact ⟨e, rfl⟩
  | ok s' => exact absurd (C44_transposed s s' hs H r h (fun _ => 0)).1 hm

/-- **C43** (satisfaction, partial). If the basis is symmetric and the inequalities only allow coefficients that are not negative, a star set
that is reported as inside a half space has no point outside. Missing: other star sets (`C43_satisfies_violated`). -/
theorem C43_satisfies_partial (lp : Bool → Vec K → Mat K → Vec K → LPRes K) (hlp : LPCorrect lp) (s : StarSet K) (hs : Built s) (H : Vec K) (r : K)
    (hsym : ∀ i < s.center.len, ∀ j < s.center.len, s.basis.at_ i j = s.basis.at_ j i)
    (hpos : ∀ α, Sat s.C.rows s.basis.rows s.C.at_ s.g.at_ α → ∀ j < s.basis.rows, 0 ≤ α j)
    (h : satisfies lp s H r = .ok true) (x : Nat → K) (hx : InStar s x) : InHalf s.center.len H.at_ r x := by
  unfold satisfies at h
  obtain ⟨s1, e1, h'⟩ := bind_ok h
  obtain ⟨s2, e2, h''⟩ := bind_ok h'
  rw [show new s.center s.basis s.C s.g = .ok s from hs] at e1
  injection e1 with e1; subst e1
  have e3 := C44_symmetric_partial s s2 hs _ _ hsym e2 x
  unfold intersectionHalfspace at e2
  split at e2
  · cases e2
  obtain ⟨b1, b2, b3, b4, b5, b6, b7⟩ := intersectionPoly_spec s s2 hs _ _ e2
  have e4 := C43_empty_partial lp hlp s2 b1 (fun α hα j hj => hpos α ((b7 α).1 hα).1 j (by rw [← b3]; exact hj)) h''
  by_contra hc
  refine e4 ⟨x, e3.2 ⟨hx, ?_⟩⟩
  unfold InHalf at hc ⊢
  simp only [vneg]
  have : ∑ d ∈ range s.center.len, -1 * H.at_ d * x d = -∑ d ∈ range s.center.len, H.at_ d * x d := by
    rw [← sum_neg_distrib]; exact sum_congr rfl (fun d _ => by ring)
  rw [this]
  linarith [not_le.1 hc]

/-- **C63** (plotted points, membership). A point that `maximize` returns is a point of the star set. -/
theorem C63_maximize_member (lp : Bool → Vec K → Mat K → Vec K → LPRes K) (hlp : LPCorrect lp) (s : StarSet K) (hs : Built s) (dir p : Vec K)
    (h : maximize lp s dir = .ok p) : InStar s p.at_ := by
  obtain ⟨h1, h2, h3⟩ := (built_iff s).1 hs
  unfold maximize at h
  split at h
  swap
  · cases h
  obtain ⟨q, hq, h⟩ := bind_ok h
  unfold callLP at hq
  split at hq
  swap
  · cases hq
  next hsh =>
  injection hq with hq; subst hq
  split at h
  · cases h
  next x hx =>
  split at h
  swap
  · cases h
  next hxl =>
  unfold vadd at h
  split at h
  swap
  · cases h
  injection h with h; subst h
  obtain ⟨l1, ⟨f1, -⟩, -⟩ := hlp.sol _ _ _ _ _ hsh.1 hsh.2 hx
  rw [h2] at f1
  exact ⟨x.at_, f1, fun d _ => by dsimp only; rw [hxl]⟩

/-- **C63** (plotted points, partial). If the basis is symmetric, no point of the star set is further in the direction than the point that
`maximize` returns. Missing: other bases (`C63_maximize_violated`). -/
theorem C63_maximize_symmetric_partial (lp : Bool → Vec K → Mat K → Vec K → LPRes K) (hlp : LPCorrect lp) (s : StarSet K) (hs : Built s) (dir p : Vec K)
    (hn : s.basis.rows = s.center.len) (hsym : ∀ i < s.center.len, ∀ j < s.center.len, s.basis.at_ i j = s.basis.at_ j i)
    (h : maximize lp s dir = .ok p) (x : Nat → K) (hx : InStar s x) : InHalf s.center.len dir.at_ (∑ d ∈ range s.center.len, dir.at_ d * p.at_ d) x := by
  obtain ⟨h1, h2, h3⟩ := (built_iff s).1 hs
  unfold maximize at h
  split at h
  swap
  · cases h
  next hdl =>
  obtain ⟨q, hq, h⟩ := bind_ok h
  unfold callLP at hq
  split at hq
  swap
  · cases hq
  next hsh =>
  injection hq with hq; subst hq
  split at h
  · cases h
  next z hz =>
  split at h
  swap
  · cases h
  next hzl =>
  unfold vadd at h
  split at h
  swap
  · cases h
  next hcl =>
  injection h with h; subst h
  obtain ⟨l1, ⟨f1, -⟩, o1⟩ := hlp.sol _ _ _ _ _ hsh.1 hsh.2 hz
  obtain ⟨α, hα, hxα⟩ := hx
  have a := o1 α ⟨by rw [h2]; exact hα, by simp⟩
  dsimp only at a hcl ⊢
  rw [hdl, hn, ← hcl] at a
  rw [hn] at hxα
  have s1 := half_symm s.center.len dir.at_ s.center.at_ α s.basis.at_ hsym x hxα
  have s2 := half_symm s.center.len dir.at_ s.center.at_ z.at_ s.basis.at_ hsym
    (fun d => s.center.at_ d + ∑ j ∈ range s.center.len, z.at_ j * s.basis.at_ j d) (fun d _ => rfl)
  unfold InHalf
  rw [hzl, hn, ← s1, ← s2]
  have e : ∀ β : Nat → K, ∑ j ∈ range s.center.len, (∑ k ∈ range s.center.len, -1 * dir.at_ k * s.basis.at_ k j) * β j =
      -∑ j ∈ range s.center.len, (∑ k ∈ range s.center.len, dir.at_ k * s.basis.at_ k j) * β j := by
    intro β
    rw [← sum_neg_distrib]
    refine sum_congr rfl (fun j _ => ?_)
    rw [← neg_mul, ← sum_neg_distrib]
    congr 1
    exact sum_congr rfl (fun k _ => by ring)
  rw [e, e] at a
  linarith

end

/-- **C61** (`contains_point`). For a point of the dimension of the star set, the answer is whether it is a point of the star set. -/
theorem C61_contains_point (check : Nat → List (Lin K) → Bool) (hc : CheckCorrect check) (s : StarSet K) (pt : Vec K) (hl : pt.len = s.center.len) :
    ∃ r, containsPoint check s pt = .ok r ∧ (r = true ↔ InStar s pt.at_) := by
  refine ⟨_, by unfold containsPoint; rw [if_pos (by omega)], ?_⟩
  rw [hc]
  simp only [holds_iff, hl]
  rfl

/-- **C61** (`containment_poly`). -/
theorem C61_containment_poly (check : Nat → List (Lin K) → Bool) (hc : CheckCorrect check) (s : StarSet K) (hs : Built s) (pt : Vec K) (hl : pt.len = s.center.len) :
    ∃ r, containmentPoly check s pt = .ok r ∧ (r = true ↔ InStar s pt.at_) := by
  obtain ⟨-, h2, -⟩ := (built_iff s).1 hs
  refine ⟨_, by unfold containmentPoly; rw [if_neg (by omega)], ?_⟩
  rw [hc]
  simp only [holds_iff, h2]
  rfl

/-- **C61** (guards). The constraints that a star set contributes to the check of a guard allow exactly the states in the star set. -/
theorem C61_add_constraints (s : StarSet K) (state : Vec K) (hl : state.len = s.center.len) :
    ∃ ls, addConstraints s state = .ok ls ∧ ((∃ α, ∀ l ∈ ls, Lin.Holds s.basis.rows α l) ↔ InStar s state.at_) := by
  refine ⟨_, by unfold addConstraints; rw [if_pos (by omega)], ?_⟩
  simp only [holds_iff]
  rfl

/-- **C61** (partial points). A point of lower dimension is answered positively exactly if it can be extended to a point of the star set. -/
theorem C61_projection (check : Nat → List (Lin K) → Bool) (hc : CheckCorrect check) (s : StarSet K) (pt : Vec K) (hl : pt.len ≤ s.center.len) :
    ∃ r, containsPoint check s pt = .ok r ∧ (r = true ↔ ∃ x, InStar s x ∧ ∀ d < pt.len, x d = pt.at_ d) := by
  refine ⟨_, by unfold containsPoint; rw [if_pos hl], ?_⟩
  rw [hc]
  simp only [holds_iff]
  constructor
  · rintro ⟨α, h1, h2⟩
    exact ⟨_, ⟨α, h1, fun d _ => rfl⟩, fun d hd => (h2 d hd).symm⟩
  · rintro ⟨x, ⟨α, h1, h2⟩, h3⟩
    exact ⟨α, h1, fun d hd => by rw [← h3 d hd]; exact h2 d (by omega)⟩

/-- **C62** (star around points). The star set that is generated for a set of points contains all of them. -/
theorem C62_points (opt : StarSet K → Mat K → List (Vec K) → Option (Fit K)) (hopt : OptCorrect opt) (pca : List (Vec K) → Except String (Mat K))
    (s st : StarSet K) (pts : List (Vec K)) (h : genStarset opt pca s pts = .ok st) (x : Vec K) (hx : x ∈ pts) : InStar st x.at_ := by
  unfold genStarset at h
  obtain ⟨basis, -, h⟩ := bind_ok h
  unfold postContPca at h
  obtain ⟨r, hr, h⟩ := bind_ok h
  split at h
  · injection h with h; subst h
    exact pcaRound_spec opt hopt s _ basis pts hr x hx
  · obtain ⟨s', -, h⟩ := bind_ok h
    obtain ⟨r', hr', h⟩ := bind_ok h
    split at h
    · injection h with h; subst h
      exact pcaRound_spec opt hopt s' _ basis pts hr' x hx
    · cases h

/-- **C62** (tube of stars). There is a star for every time of the simulations, and it contains the state of the simulation of every sample at that
time. -/
theorem C62_tube (opt : StarSet K → Mat K → List (Vec K) → Option (Fit K)) (hopt : OptCorrect opt) (pca : List (Vec K) → Except String (Mat K))
    (sim : Vec K → Except String (List (K × Vec K))) (s : StarSet K) (samples : List (Vec K)) (stars : List (StarSet K))
    (h : starsPostSim opt pca sim s samples = .ok stars) (x : Vec K) (hx : x ∈ samples) :
    ∃ tr, sim x = .ok tr ∧ tr.length = stars.length ∧
      ∀ (k : Nat) (st : StarSet K) (y : K × Vec K), stars[k]? = some st → tr[k]? = some y → InStar st y.2.at_ := by
  unfold starsPostSim at h
  obtain ⟨traces, ht, h⟩ := bind_ok h
  rw [mapM_ok_iff] at ht
  obtain ⟨tr, htr, hsim⟩ := forall₂_mem_left ht hx
  split at h
  · cases htr
  next tr0 trs =>
  split at h
  swap
  · cases h
  next hall =>
  rw [List.all_eq_true] at hall
  have hl : tr.length = tr0.length := by simpa using hall tr htr
  obtain ⟨g1, g2⟩ := (mapM_range_ok _ _ _).1 h
  refine ⟨tr, hsim, by omega, ?_⟩
  intro k st y hst hy
  have hk : k < tr0.length := by rw [← g1]; by_contra hc; rw [List.getElem?_eq_none (by omega)] at hst; cases hst
  obtain ⟨st', e1, e2⟩ := g2 k hk
  rw [hst] at e1; injection e1 with e1; subst e1
  obtain ⟨pts, e3, e4⟩ := bind_ok e2
  unfold slice at e3
  rw [mapM_ok_iff] at e3
  obtain ⟨v, hv, e5⟩ := forall₂_mem_left e3 htr
  rw [hy] at e5
  injection e5 with e5; subst e5
  exact C62_points opt hopt pca s st pts e4 _ hv

/-- **C62** (second try). When no factor is found, the fit is tried again with the coefficients between -1 and 1, the same center and the same vectors. -/
theorem C62_retry [IsStrictOrderedRing K] (s s' : StarSet K) (h : newPred s = .ok s') :
    s'.center = s.center ∧ s'.basis = s.basis ∧ ∀ α, Sat s'.C.rows s'.C.cols s'.C.at_ s'.g.at_ α ↔ ∀ j < s.basis.rows, -1 ≤ α j ∧ α j ≤ 1 := by
  unfold newPred new at h
  split at h
  · cases h
  split at h
  · cases h
  split at h
  · cases h
  rename_i h2 h3
  injection h with h
  subst h
  have hc : s.C.cols = s.basis.rows := by simpa using h2
  refine ⟨rfl, rfl, fun α => ?_⟩
  simp only [Sat]
  rw [← hc]
  have key : ∀ i < s.C.cols * 2, ∑ j ∈ Finset.range s.C.cols, (if j * 2 = i then 1 else if j * 2 + 1 = i then -1 else 0) * α j =
      if i % 2 = 0 then α (i / 2) else - α (i / 2) := by
    intro i hi
    rw [Finset.sum_eq_single (i / 2)]
    · by_cases e : i % 2 = 0
      · rw [if_pos (by omega), if_pos e, one_mul]
      · rw [if_neg (by omega), if_pos (by omega), if_neg e, neg_one_mul]
    · intro j _ hj
      rw [if_neg (by omega), if_neg (by omega), zero_mul]
    · intro hj
      exact absurd (Finset.mem_range.2 (by omega)) hj
  constructor
  · intro h j hj
    have h1 := h (j * 2) (by omega)
    have h2 := h (j * 2 + 1) (by omega)
    rw [key _ (by omega), if_pos (by omega), show j * 2 / 2 = j by omega] at h1
    rw [key _ (by omega), if_neg (by omega), show (j * 2 + 1) / 2 = j by omega] at h2
    exact ⟨by linarith, h1⟩
  · intro h i hi
    rw [key i hi]
    have := h (i / 2) (by omega)
    split <;> linarith

/-- **C62** (violated). For a star set whose number of inequalities is not twice the number of vectors, the second try raises an exception. -/
theorem C62_retry_violated (opt : StarSet K → Mat K → List (Vec K) → Option (Fit K)) (s : StarSet K) (hs : s.g.len ≠ s.C.cols * 2) (basis : Mat K)
    (pts : List (Vec K)) (h : pcaRound opt s basis pts = .ok none) (st : StarSet K) : postContPca opt s basis pts ≠ .ok st := by
  unfold postContPca
  rw [h]
  show (newPred s).bind _ ≠ _
  intro hb
  obtain ⟨s', h1, -⟩ := bind_ok hb
  unfold newPred new at h1
  split at h1
  · cases h1
  split at h1
  · cases h1
  cases h1

/-- **C62** (violated). As imported, the generation of a star set raises an exception for every set of points: the class `PCA` is not imported. -/
theorem C62_import_violated (opt : StarSet K → Mat K → List (Vec K) → Option (Fit K)) (s : StarSet K) (pts : List (Vec K)) :
    genStarset opt pcaNotImported s pts = .error "NameError" := rfl

/-- **C64** (partial). For at most `segLen` initial stars the tube is that of a star set which contains all of them. Missing: more initial
stars (`C64_segments_violated`). -/
theorem C64_one_segment_partial [IsStrictOrderedRing K] (lp : Bool → Vec K → Mat K → Vec K → LPRes K) (hlp : LPCorrect lp)
    (box : List (K × K) → Except String (Mat K × Vec K)) (hbox : BoxCorrect box) (reach : StarSet K → Except String (List (K × StarSet K)))
    (segLen n : Nat) (inits : List (StarSet K)) (hs : ∀ s ∈ inits, Built s ∧ s.center.len = n) (hl : inits.length ≤ segLen) (tube : List (K × StarSet K))
    (h : fullStars (combineStars lp box) reach segLen inits = .ok tube) :
    ∃ c, reach c = .ok tube ∧ Built c ∧ ∀ s ∈ inits, ∀ x, InStar s x → InStar c x := by
  unfold fullStars at h
  split at h
  · cases h
  split at h
  · cases h
  next s ss =>
  obtain ⟨r, hr, h⟩ := bind_ok h
  have ht : (s :: ss).take segLen = s :: ss := List.take_of_length_le hl
  have hd : (s :: ss).drop segLen = [] := List.drop_eq_nil_of_le hl
  rw [List.length_cons] at hr
  unfold fullStarsLoop at hr
  rw [ht, hd] at hr
  obtain ⟨c, hc, hr⟩ := bind_ok hr
  obtain ⟨t, ht', hr⟩ := bind_ok hr
  have hr' : r = some t := by
    cases hn : ss.length with
    | zero => rw [hn] at hr; unfold fullStarsLoop at hr; injection hr with hr; exact hr.symm
    | succ n => rw [hn] at hr; unfold fullStarsLoop at hr; injection hr with hr; exact hr.symm
  subst hr'
  injection h with h; subst h
  refine ⟨c, ht', ?_⟩
  split at hc
  · have := C42_combine lp hlp box hbox n _ hs c hc
    exact ⟨this.1, this.2.2.1⟩
  · next hlen =>
    injection hc with hc; subst hc
    have : ss = [] := by
      cases ss with
      | nil => rfl
      | cons a as => simp at hlen
    subst this
    refine ⟨(hs s (by simp)).1, ?_⟩
    intro s' hs' x hx
    simp at hs'; subst hs'; exact hx

end

/-! ### Examples -/

/-- The inequalities of a box: `x d ≤ hi d` and `-x d ≤ -lo d`. -/
def stdBox {K : Type} [Field K] (dims : List (K × K)) : Except String (Mat K × Vec K) :=
  .ok (⟨2 * dims.length, dims.length, fun i j => if i < dims.length then (if i = j then 1 else 0) else (if i - dims.length = j then -1 else 0)⟩,
    ⟨2 * dims.length, fun i => if i < dims.length then (dims[i]?.map Prod.snd).getD 0 else -(dims[i - dims.length]?.map Prod.fst).getD 0⟩)

theorem stdBox_correct {K : Type} [Field K] [LinearOrder K] [IsStrictOrderedRing K] : BoxCorrect (stdBox (K := K)) := by
  intro dims A b h
  injection h with h
  injection h with h1 h2
  subst h1; subst h2
  refine ⟨rfl, fun x => ?_⟩
  unfold Sat
  dsimp only
  constructor
  · intro h d r hr
    have hd : d < dims.length := by by_contra hc; rw [List.getElem?_eq_none (by omega)] at hr; cases hr
    have a := h d (by omega)
    have b := h (dims.length + d) (by omega)
    rw [if_pos hd, hr] at a
    rw [if_neg (by omega)] at b
    have e : dims.length + d - dims.length = d := by omega
    simp only [e, hr] at b
    simp [hd] at a b
    exact ⟨by linarith, a⟩
  · intro h i hi
    by_cases hlt : i < dims.length
    · have := (h i dims[i] (by simp [hlt])).2
      simpa [hlt] using this
    · have := (h (i - dims.length) (dims[i - dims.length]'(by omega)) (by simp)).1
      have h3 : i - dims.length < dims.length := by omega
      simp only [if_neg hlt]
      rw [List.getElem?_eq_getElem h3]
      simp [h3]
      exact this

open Classical in
/-- A solver that finds an optimum whenever there is one. -/
noncomputable def idealLP {K : Type} [Field K] [LinearOrder K] (nn : Bool) (c : Vec K) (A : Mat K) (b : Vec K) : LPRes K :=
  if h : ∃ x : Vec K, x.len = c.len ∧ LPFeas nn A b x.at_ ∧ ∀ y, LPFeas nn A b y → ∑ j ∈ range c.len, c.at_ j * x.at_ j ≤ ∑ j ∈ range c.len, c.at_ j * y j
  then ⟨0, some h.choose⟩ else if ∃ y, LPFeas nn A b y then ⟨3, none⟩ else ⟨2, none⟩

section
variable {K : Type} [Field K] [LinearOrder K]

theorem idealLP_correct : LPCorrect (idealLP (K := K)) := by
  refine ⟨?_, ?_, ?_⟩
  · intro nn c A b x _ _ h
    unfold idealLP at h
    split at h
    · next hx => injection h with h; subst h; exact hx.choose_spec
    · split at h <;> cases h
  · intro nn c A b _ _ h
    unfold idealLP at h ⊢
    split at h
    · next hx => rw [dif_pos hx]; exact ⟨_, rfl⟩
    · split at h <;> simp at h
  · intro nn c A b _ _ h
    unfold idealLP at h
    split at h
    · simp at h
    · split at h
      · simp at h
      · next hne => exact hne

open Classical in
theorem isEmpty_ideal (s : StarSet K) (hs : Built s) (hn : s.basis.rows = s.center.len) :
    isEmpty idealLP s = .ok (decide (¬ ∃ α, Sat s.C.rows s.basis.rows s.C.at_ s.g.at_ α ∧ ∀ j < s.basis.rows, 0 ≤ α j)) := by
  obtain ⟨h1, h2, h3⟩ := (built_iff s).1 hs
  have e : ∀ α, LPFeas true s.C s.g α ↔ (Sat s.C.rows s.basis.rows s.C.at_ s.g.at_ α ∧ ∀ j < s.basis.rows, 0 ≤ α j) := by
    intro α; unfold LPFeas; rw [h2]; simp
  unfold isEmpty isFeasible callLP
  rw [if_pos ⟨by dsimp only; omega, by omega⟩]
  simp only [Except.bind]
  by_cases hf : ∃ α, LPFeas true s.C s.g α
  · have hi : (idealLP true (⟨s.center.len, fun _ => 0⟩ : Vec K) s.C s.g).status = 0 := by
      unfold idealLP
      rw [dif_pos]
      obtain ⟨α, hα⟩ := hf
      exact ⟨⟨s.center.len, α⟩, rfl, hα, fun y _ => by simp⟩
    rw [if_pos hi]
    simp only [Except.map, Bool.not_true, Except.ok.injEq]
    symm
    rw [decide_eq_false_iff_not, not_not]
    obtain ⟨α, hα⟩ := hf
    exact ⟨α, (e α).1 hα⟩
  · have hi : (idealLP true (⟨s.center.len, fun _ => 0⟩ : Vec K) s.C s.g).status = 2 := by
      unfold idealLP
      rw [dif_neg, if_neg hf]
      rintro ⟨x, -, hx, -⟩
      exact hf ⟨_, hx⟩
    rw [if_neg (by omega), if_pos hi]
    simp only [Except.map, Bool.not_false, Except.ok.injEq]
    symm
    rw [decide_eq_true_iff]
    rintro ⟨α, hα⟩
    exact hf ⟨α, (e α).2 hα⟩

theorem ideal_some (nn : Bool) (c : Vec K) (A : Mat K) (b : Vec K) (z : Nat → K) (hz : LPFeas nn A b z)
    (ho : ∀ y, LPFeas nn A b y → ∑ j ∈ range c.len, c.at_ j * z j ≤ ∑ j ∈ range c.len, c.at_ j * y j) :
    ∃ x : Vec K, (idealLP nn c A b).x = some x ∧ x.len = c.len := by
  unfold idealLP
  have : ∃ x : Vec K, x.len = c.len ∧ LPFeas nn A b x.at_ ∧ ∀ y, LPFeas nn A b y → ∑ j ∈ range c.len, c.at_ j * x.at_ j ≤ ∑ j ∈ range c.len, c.at_ j * y j :=
    ⟨⟨c.len, z⟩, rfl, hz, ho⟩
  rw [dif_pos this]
  exact ⟨_, rfl, this.choose_spec.1⟩

theorem getMaxMin_ideal (s : StarSet K) (hs : Built s) (i : Nat) (hi : i < s.basis.cols) (z z' : Nat → K)
    (hz : LPFeas false s.C s.g z) (hz' : LPFeas false s.C s.g z')
    (ho : ∀ y, LPFeas false s.C s.g y → ∑ j ∈ range s.basis.rows, s.basis.at_ j i * z j ≤ ∑ j ∈ range s.basis.rows, s.basis.at_ j i * y j)
    (ho' : ∀ y, LPFeas false s.C s.g y → ∑ j ∈ range s.basis.rows, -1 * s.basis.at_ j i * z' j ≤ ∑ j ∈ range s.basis.rows, -1 * s.basis.at_ j i * y j) :
    ∃ r, getMaxMin idealLP s i = .ok r := by
  obtain ⟨h1, h2, h3⟩ := (built_iff s).1 hs
  obtain ⟨x, e1, e2⟩ := ideal_some false ⟨s.basis.rows, fun j => s.basis.at_ j i⟩ s.C s.g z hz ho
  obtain ⟨x', e3, e4⟩ := ideal_some false (vneg ⟨s.basis.rows, fun j => s.basis.at_ j i⟩) s.C s.g z' hz' ho'
  unfold getMaxMin Mat.col callLP
  rw [if_pos hi]
  simp only [Except.bind]
  rw [if_pos ⟨by simpa using h2, by omega⟩, if_pos ⟨by simpa [vneg] using h2, by omega⟩]
  unfold dotRes
  dsimp only
  rw [e1, e3]
  dsimp only
  unfold dot
  rw [if_pos (by rw [e2]), if_pos (by rw [e4]; rfl)]
  exact ⟨_, rfl⟩

end

/-- The parallelogram `x 0 = α 0`, `x 1 = α 0 + α 1` with coefficients between 0 and 1. -/
def para : StarSet ℚ :=
  ⟨ofList [0, 0], ⟨2, 2, fun i j => if i = 0 then 1 else if j = 0 then 0 else 1⟩,
   ⟨4, 2, fun i j => (([[1, 0], [-1, 0], [0, 1], [0, -1]] : List (List ℚ))[i]?.getD [])[j]?.getD 0⟩, ofList [1, 0, 1, 0]⟩

/-- The segment from -2 to -1. -/
def seg : StarSet ℚ :=
  ⟨ofList [0], ⟨1, 1, fun _ _ => 1⟩, ⟨2, 1, fun i _ => if i = 0 then 1 else -1⟩, ofList [-1, 2]⟩

theorem para_built : Built para := by rw [built_iff]; decide

theorem seg_built : Built seg := by rw [built_iff]; decide

theorem para_sat (α : Nat → ℚ) : Sat para.C.rows para.basis.rows para.C.at_ para.g.at_ α ↔ (0 ≤ α 0 ∧ α 0 ≤ 1) ∧ 0 ≤ α 1 ∧ α 1 ≤ 1 := by
  unfold Sat
  simp only [para, sum_range_succ, sum_range_zero, ofList]
  constructor
  · intro h
    have a := h 0 (by omega)
    have b := h 1 (by omega)
    have c := h 2 (by omega)
    have d := h 3 (by omega)
    simp at a b c d
    exact ⟨⟨b, a⟩, d, c⟩
  · rintro ⟨⟨a, b⟩, c, d⟩ i hi
    interval_cases i <;> simp <;> linarith

theorem para_mem (x : Nat → ℚ) : InStar para x ↔ (0 ≤ x 0 ∧ x 0 ≤ 1) ∧ 0 ≤ x 1 - x 0 ∧ x 1 - x 0 ≤ 1 := by
  unfold InStar Point
  simp only [para_sat]
  constructor
  · rintro ⟨α, h, hx⟩
    have a := hx 0 (by decide)
    have b := hx 1 (by decide)
    simp [para, sum_range_succ, ofList] at a b
    rw [a, b]
    simpa using h
  · intro h
    refine ⟨fun j => if j = 0 then x 0 else x 1 - x 0, by simpa using h, fun d hd => ?_⟩
    have hd2 : d < 2 := hd
    interval_cases d <;> simp [para, sum_range_succ, ofList]

theorem seg_sat (α : Nat → ℚ) : Sat seg.C.rows seg.basis.rows seg.C.at_ seg.g.at_ α ↔ -2 ≤ α 0 ∧ α 0 ≤ -1 := by
  unfold Sat
  simp only [seg, sum_range_succ, sum_range_zero, ofList]
  constructor
  · intro h
    have a := h 0 (by omega)
    have b := h 1 (by omega)
    simp at a b
    exact ⟨by linarith, a⟩
  · rintro ⟨a, b⟩ i hi
    interval_cases i <;> simp <;> linarith

theorem seg_mem (x : Nat → ℚ) : InStar seg x ↔ -2 ≤ x 0 ∧ x 0 ≤ -1 := by
  unfold InStar Point
  simp only [seg_sat]
  constructor
  · rintro ⟨α, h, hx⟩
    have a := hx 0 (by decide)
    simp [seg, sum_range_succ, ofList] at a
    rw [a]; exact h
  · intro h
    refine ⟨x, h, fun d hd => ?_⟩
    have hd2 : d < 1 := hd
    interval_cases d
    simp [seg, sum_range_succ, ofList]

/-- **C43** (violated). The segment from -2 to -1 is reported as empty by every correct solver: coefficients are implicitly taken to be not
negative. -/
theorem C43_empty_violated : (∃ x, InStar seg x) ∧ isEmpty idealLP seg = .ok true ∧
    ∀ lp, LPCorrect lp → ∀ r, isEmpty lp seg = .ok r → r = true := by
  have key : ¬ ∃ α, Sat seg.C.rows seg.basis.rows seg.C.at_ seg.g.at_ α ∧ ∀ j < seg.basis.rows, 0 ≤ α j := by
    rintro ⟨α, h, h'⟩
    rw [seg_sat] at h
    linarith [h' 0 (by decide)]
  refine ⟨⟨fun _ => -1, (seg_mem _).2 (by norm_num)⟩, ?_, fun lp hlp r h => (C43_empty_nonneg lp hlp seg seg_built r h).2 key⟩
  rw [isEmpty_ideal seg seg_built rfl]
  simp [key]

/-- **C43** (violated). The segment from -2 to -1 is reported as inside the half space `x ≤ -5`. -/
theorem C43_satisfies_violated : (∃ x, InStar seg x ∧ ¬ InHalf 1 (fun _ => 1) (-5) x) ∧ satisfies idealLP seg (ofList [1]) (-5) = .ok true := by
  refine ⟨⟨fun _ => -1, (seg_mem _).2 (by norm_num), by norm_num [InHalf]⟩, ?_⟩
  have hi : ∃ s', intersectionHalfspace seg (vneg (ofList [1])) (-1 * -5) = .ok s' := ⟨_, rfl⟩
  obtain ⟨s', hi⟩ := hi
  unfold satisfies
  rw [show new seg.center seg.basis seg.C seg.g = .ok seg from seg_built]
  simp only [Except.bind]
  rw [hi]
  dsimp only
  unfold intersectionHalfspace at hi
  rw [if_neg (by decide)] at hi
  obtain ⟨b1, b2, b3, b4, b5, b6, b7⟩ := intersectionPoly_spec seg s' seg_built _ _ hi
  rw [isEmpty_ideal s' b1 (by rw [b2, b3]; rfl)]
  simp only [Except.ok.injEq, decide_eq_true_eq]
  rintro ⟨α, h, h'⟩
  have h2 := (seg_sat α).1 ((b7 α).1 h).1
  linarith [h' 0 (by rw [b3]; decide)]

/-- **C43** (violated). Also with coefficients that are not negative: the parallelogram is reported as inside `x 1 ≤ 3/2`, but contains
the point `(1, 2)`. -/
theorem C43_satisfies_transposed_violated :
    (∃ x, InStar para x ∧ ¬ InHalf 2 (ofList [0, 1]).at_ (3 / 2) x) ∧ satisfies idealLP para (ofList [0, 1]) (3 / 2) = .ok true := by
  refine ⟨⟨fun d => if d = 0 then 1 else 2, (para_mem _).2 (by norm_num), by norm_num [InHalf, sum_range_succ, ofList]⟩, ?_⟩
  have hi : ∃ s', intersectionHalfspace para (vneg (ofList [0, 1])) (-1 * (3 / 2)) = .ok s' := ⟨_, rfl⟩
  obtain ⟨s', hi⟩ := hi
  unfold satisfies
  rw [show new para.center para.basis para.C para.g = .ok para from para_built]
  simp only [Except.bind]
  rw [hi]
  dsimp only
  unfold intersectionHalfspace at hi
  rw [if_neg (by decide)] at hi
  obtain ⟨b1, b2, b3, b4, b5, b6, b7⟩ := intersectionPoly_spec para s' para_built _ _ hi
  rw [isEmpty_ideal s' b1 (by rw [b2, b3]; rfl)]
  simp only [Except.ok.injEq, decide_eq_true_eq]
  rintro ⟨α, h, h'⟩
  obtain ⟨h2, h3⟩ := (b7 α).1 h
  rw [para_sat] at h2
  have h4 := h3 0 (by decide)
  simp [para, sum_range_succ, ofList, vneg] at h4
  linarith [h2.2.2]

/-- **C44** (violated). Intersecting the parallelogram with `x 1 ≤ 1` keeps the point `(1, 2)`, and intersecting it with `x 0 ≤ 1` loses it. -/
theorem C44_violated :
    (∃ s', intersectionHalfspace para (ofList [0, 1]) 1 = .ok s' ∧ ∃ x, InStar s' x ∧ ¬ InHalf 2 (ofList [0, 1]).at_ 1 x) ∧
    (∃ s', intersectionHalfspace para (ofList [1, 0]) 1 = .ok s' ∧ ∃ x, InStar para x ∧ InHalf 2 (ofList [1, 0]).at_ 1 x ∧ ¬ InStar s' x) := by
  constructor
  · have hi : ∃ s', intersectionHalfspace para (ofList [0, 1]) 1 = .ok s' := ⟨_, rfl⟩
    obtain ⟨s', hi⟩ := hi
    refine ⟨s', hi, fun d => if d = 0 then 1 else 2, ?_, by norm_num [InHalf, sum_range_succ, ofList]⟩
    rw [(C44_transposed para s' para_built _ _ hi _).2.2]
    refine ⟨fun _ => 1, by rw [para_sat]; norm_num, fun d hd => ?_, ?_⟩
    · have hd2 : d < 2 := hd
      interval_cases d <;> norm_num [para, sum_range_succ, ofList]
    · norm_num [InHalf, para, sum_range_succ, ofList]
  · have hi : ∃ s', intersectionHalfspace para (ofList [1, 0]) 1 = .ok s' := ⟨_, rfl⟩
    obtain ⟨s', hi⟩ := hi
    refine ⟨s', hi, fun d => if d = 0 then 1 else 2, (para_mem _).2 (by norm_num), by norm_num [InHalf, sum_range_succ, ofList], ?_⟩
    rw [(C44_transposed para s' para_built _ _ hi _).2.2]
    rintro ⟨α, h1, h2, h3⟩
    have a := h2 0 (by decide)
    have b := h2 1 (by decide)
    simp [para, sum_range_succ, ofList] at a b
    simp [InHalf, para, sum_range_succ, ofList] at h3
    linarith

/-- `C44_shape_violated` applies: a star set in two dimensions with one basis vector. -/
example : ∃ s : StarSet ℚ, Built s ∧ s.basis.rows ≠ s.center.len :=
  ⟨⟨ofList [0, 0], ⟨1, 2, fun _ _ => 1⟩, ⟨1, 1, fun _ _ => 1⟩, ofList [1]⟩, by rw [built_iff]; decide, by decide⟩

/-- `C44_symmetric_partial` applies to the segment. -/
example : ∃ s', intersectionHalfspace seg (ofList [1]) (-3 / 2) = .ok s' ∧ ∀ x, InStar s' x ↔ (-2 ≤ x 0 ∧ x 0 ≤ -1) ∧ x 0 ≤ -3 / 2 := by
  have hi : ∃ s', intersectionHalfspace seg (ofList [1]) (-3 / 2) = .ok s' := ⟨_, rfl⟩
  obtain ⟨s', hi⟩ := hi
  refine ⟨s', hi, fun x => ?_⟩
  rw [C44_symmetric_partial seg s' seg_built _ _ (fun i _ j _ => rfl) hi x, seg_mem]
  simp [InHalf, seg, ofList]

/-- The map `x ↦ (2 * x 0 + 1, x 1)`. -/
def exMap (x : Vec ℚ) : Except String (Vec ℚ) := .ok ⟨x.len, fun d => if d = 0 then 2 * x.at_ 0 + 1 else x.at_ d⟩

/-- `C42_affine` applies to the parallelogram. -/
example : ∃ s', applyMap exMap para = .ok s' ∧ ∀ y : Nat → ℚ, InStar s' y ↔ ∃ x, InStar para x ∧ y 0 = 2 * x 0 + 1 ∧ y 1 = x 1 := by
  obtain ⟨s', h1, -, h2⟩ := C42_affine para para_built exMap (fun i j => if i = j then (if i = 0 then 2 else 1) else 0) (fun i => if i = 0 then 1 else 0) (by
    intro x hx
    refine ⟨_, rfl, hx, fun d hd => ?_⟩
    have hd2 : d < 2 := hd
    have e : para.center.len = 2 := rfl
    interval_cases d <;> simp [affine, e, sum_range_succ]
    ring)
  refine ⟨s', h1, fun y => ?_⟩
  rw [h2]
  have e : para.center.len = 2 := rfl
  refine exists_congr fun x => and_congr Iff.rfl ?_
  rw [e]
  constructor
  · intro h
    have a := h 0 (by omega)
    have b := h 1 (by omega)
    simp [affine, sum_range_succ] at a b
    exact ⟨by rw [a]; ring, b⟩
  · rintro ⟨a, b⟩ d hd
    interval_cases d <;> simp [affine, sum_range_succ, a, b]
    ring

/-- `C42_linear_tube` applies: `x ↦ x`, then `x ↦ 2 * x`. -/
example : ∃ tube, reachLinear (fun x => .ok [(0, x), (1, ⟨x.len, fun d => 2 * x.at_ d⟩)]) para = .ok tube ∧ tube.length = 2 := by
  obtain ⟨tube, h1, h2, -⟩ := C42_linear_tube para para_built (fun x => .ok [(0, x), (1, ⟨x.len, fun d => 2 * x.at_ d⟩)]) 2 (fun k => (k : ℚ))
    (fun k i j => if i = j then (if k = 0 then 1 else 2) else 0) (fun _ _ => 0) (by
      intro x hx
      refine ⟨_, rfl, rfl, fun k hk => ?_⟩
      have e : para.center.len = 2 := rfl
      interval_cases k
      · refine ⟨x, by simp, hx, fun d hd => ?_⟩
        have hd2 : d < 2 := hd
        interval_cases d <;> simp [affine, e, sum_range_succ]
      · refine ⟨⟨x.len, fun d => 2 * x.at_ d⟩, by simp, hx, fun d hd => ?_⟩
        have hd2 : d < 2 := hd
        interval_cases d <;> simp [affine, e, sum_range_succ])
  exact ⟨tube, h1, h2⟩

/-- `C42_from_rectangle` applies. -/
example : ∃ s, rectToStar stdBox [(-2 : ℚ)] [-1] = .ok s ∧ ∀ x, InStar s x ↔ -2 ≤ x 0 ∧ x 0 ≤ -1 := by
  have h : ∃ s, rectToStar stdBox [(-2 : ℚ)] [-1] = .ok s := ⟨_, rfl⟩
  obtain ⟨s, h⟩ := h
  refine ⟨s, h, fun x => ?_⟩
  rw [(C42_from_rectangle stdBox stdBox_correct _ _ s h).2.2.2 x]
  constructor
  · intro h; exact h 0 (-2) (-1) rfl rfl
  · intro h d l u h1 h2
    cases d with
    | zero => simp at h1 h2; rw [← h1, ← h2]; exact h
    | succ d => simp at h1

theorem seg_minmax : ∃ r, getMaxMin idealLP seg 0 = .ok r := by
  refine getMaxMin_ideal seg seg_built 0 (by decide) (fun _ => -2) (fun _ => -1) ⟨?_, by simp⟩ ⟨?_, by simp⟩ ?_ ?_
  · exact (seg_sat _).2 (by norm_num)
  · exact (seg_sat _).2 (by norm_num)
  · intro y hy; have := (seg_sat y).1 hy.1; simp [seg]; exact this.1
  · intro y hy; have := (seg_sat y).1 hy.1; simp [seg]; linarith [this.2]

theorem para_rect : ∃ r, overapprox idealLP para = .ok r := by
  obtain ⟨r, h, -⟩ := mapM_range_ex (getMaxMin idealLP para) (fun _ _ => True) para.center.len (by
    intro i hi
    have hi2 : i < 2 := hi
    have key : ∃ r, getMaxMin idealLP para i = .ok r := by
      refine getMaxMin_ideal para para_built i (by exact hi2) (fun _ => 0) (fun _ => 1) ⟨?_, by simp⟩ ⟨?_, by simp⟩ ?_ ?_
      · exact (para_sat _).2 (by norm_num)
      · exact (para_sat _).2 (by norm_num)
      · intro y hy
        have := (para_sat y).1 hy.1
        interval_cases i <;> simp [para, sum_range_succ] <;> linarith [this.1.1, this.2.1]
      · intro y hy
        have := (para_sat y).1 hy.1
        interval_cases i <;> simp [para, sum_range_succ] <;> linarith [this.1.2, this.2.2]
    obtain ⟨r, hr⟩ := key
    exact ⟨r, hr, trivial⟩)
  exact ⟨r, h⟩

/-- `C42_rectangle` applies to the parallelogram: its rectangle is `[0, 1] × [0, 2]`. -/
example : overapprox idealLP para = .ok [(0, 1), (0, 2)] := by
  obtain ⟨r, h⟩ := para_rect
  rw [h]
  obtain ⟨hl, hk⟩ := C42_rectangle idealLP idealLP_correct para para_built r h
  obtain ⟨l0, u0, e0, a0, ⟨x0, m0, rfl⟩, ⟨y0, n0, rfl⟩⟩ := hk 0 (by decide)
  obtain ⟨l1, u1, e1, a1, ⟨x1, m1, rfl⟩, ⟨y1, n1, rfl⟩⟩ := hk 1 (by decide)
  have p := (a0 (fun _ => 0) ((para_mem _).2 (by norm_num)))
  have q := (a0 (fun d => if d = 0 then 1 else 2) ((para_mem _).2 (by norm_num)))
  have p' := (a1 (fun _ => 0) ((para_mem _).2 (by norm_num)))
  have q' := (a1 (fun d => if d = 0 then 1 else 2) ((para_mem _).2 (by norm_num)))
  rw [para_mem] at m0 n0 m1 n1
  simp at p q p' q'
  have f1 : x0 0 = 0 := by linarith [m0.1.1]
  have f2 : y0 0 = 1 := by linarith [n0.1.2]
  have f3 : x1 1 = 0 := by linarith [m1.1.1, m1.2.1]
  have f4 : y1 1 = 2 := by linarith [n1.1.2, n1.2.2]
  rw [f1, f2] at e0
  rw [f3, f4] at e1
  have hl2 : r.length = 2 := hl
  match r, hl2 with
  | [a, b], _ => simp at e0 e1; rw [e0, e1]

/-- `C42_combine` applies. -/
example : ∃ c, combineStars idealLP stdBox [seg, seg] = .ok c := by
  obtain ⟨r, h⟩ := seg_minmax
  obtain ⟨dims, h1, h2, -⟩ := mapM_range_ex (fun i => (combineDim idealLP i [seg, seg] none).bind boundsOf) (fun _ _ => True) seg.center.len (by
    intro i hi
    have hi1 : i < 1 := hi
    interval_cases i
    simp only [combineDim, h, Except.bind]
    exact ⟨_, rfl, trivial⟩)
  unfold combineStars
  dsimp only
  rw [h1]
  have h3 : dims.length = 1 := h2
  match dims, h3 with
  | [a], _ => exact ⟨_, rfl⟩

/-- `C42_rectangle_tube` applies, with a tube of one rectangle. -/
example : ∃ stars, reachRect idealLP stdBox (fun lo hi => .ok [(0, lo), (1, hi)]) para = .ok stars := by
  obtain ⟨r, h⟩ := para_rect
  have hl := (C42_rectangle idealLP idealLP_correct para para_built r h).1
  have hl2 : r.length = 2 := hl
  match r, hl2 with
  | [a, b], _ =>
    unfold reachRect
    rw [h]
    obtain ⟨stars, e, -⟩ := mapM_range_ex (pairStar stdBox [(0, [a, b].map Prod.fst), (1, [a, b].map Prod.snd)]) (fun _ _ => True) 1 (by
      intro i hi
      interval_cases i
      exact ⟨_, rfl, trivial⟩)
    refine ⟨stars, ?_⟩
    rw [← e]
    simp [Except.bind]

/-- `C43_empty_partial`, `C43_nonempty` and `C43_satisfies_partial` apply: the unit interval, and the inconsistent inequalities
`x ≤ -1`, `0 ≤ x`. -/
def unit1 (g : List ℚ) : StarSet ℚ := ⟨ofList [0], ⟨1, 1, fun _ _ => 1⟩, ⟨2, 1, fun i _ => if i = 0 then 1 else -1⟩, ofList g⟩

theorem unit1_sat (u : ℚ) (α : Nat → ℚ) : Sat 2 1 (unit1 [u, 0]).C.at_ (unit1 [u, 0]).g.at_ α ↔ 0 ≤ α 0 ∧ α 0 ≤ u := by
  unfold Sat
  simp only [unit1, sum_range_succ, sum_range_zero, ofList]
  constructor
  · intro h
    have a := h 0 (by omega)
    have b := h 1 (by omega)
    simp at a b
    exact ⟨b, a⟩
  · rintro ⟨a, b⟩ i hi
    interval_cases i <;> simp <;> linarith

example : isEmpty idealLP (unit1 [-1, 0]) = .ok true ∧ isEmpty idealLP (unit1 [1, 0]) = .ok false ∧
    (∀ u α, Sat (unit1 [u, 0]).C.rows (unit1 [u, 0]).basis.rows (unit1 [u, 0]).C.at_ (unit1 [u, 0]).g.at_ α → ∀ j < (unit1 [u, 0]).basis.rows, 0 ≤ α j) := by
  refine ⟨?_, ?_, ?_⟩
  · rw [isEmpty_ideal _ (by rw [built_iff]; decide) rfl]
    simp only [Except.ok.injEq, decide_eq_true_eq]
    rintro ⟨α, h, -⟩
    have := (unit1_sat (-1) α).1 h
    linarith [this.1, this.2]
  · rw [isEmpty_ideal _ (by rw [built_iff]; decide) rfl]
    simp only [Except.ok.injEq, decide_eq_false_iff_not, not_not]
    exact ⟨fun _ => 0, (unit1_sat 1 _).2 (by norm_num), fun _ _ => le_refl _⟩
  · intro u α h j hj
    have := (unit1_sat u α).1 h
    have hj1 : j < 1 := hj
    interval_cases j
    exact this.1

/-- The hypotheses of `C43_satisfies_partial` are met by the unit interval and the half space `x ≤ 2`. -/
example : satisfies idealLP (unit1 [1, 0]) (ofList [1]) 2 = .ok true := by
  have hb : Built (unit1 [1, 0]) := by rw [built_iff]; decide
  have hi : ∃ s', intersectionHalfspace (unit1 [1, 0]) (vneg (ofList [1])) (-1 * 2) = .ok s' := ⟨_, rfl⟩
  obtain ⟨s', hi⟩ := hi
  unfold satisfies
  rw [show new (unit1 [1, 0]).center (unit1 [1, 0]).basis (unit1 [1, 0]).C (unit1 [1, 0]).g = .ok (unit1 [1, 0]) from hb]
  simp only [Except.bind]
  rw [hi]
  dsimp only
  unfold intersectionHalfspace at hi
  rw [if_neg (by decide)] at hi
  obtain ⟨b1, b2, b3, b4, b5, b6, b7⟩ := intersectionPoly_spec _ s' hb _ _ hi
  rw [isEmpty_ideal s' b1 (by rw [b2, b3]; rfl)]
  simp only [Except.ok.injEq, decide_eq_true_eq]
  rintro ⟨α, h, h'⟩
  obtain ⟨h2, h3⟩ := (b7 α).1 h
  have h2 := (unit1_sat 1 α).1 h2
  have h4 := h3 0 (by decide)
  simp [unit1, sum_range_succ, ofList, vneg] at h4
  linarith [h2.2]

/-- **C63** (violated). In the direction `(-1, 2)` the point `(1, 2)` of the parallelogram is further than the point `(0, 1)` that `maximize`
returns with every correct solver. -/
theorem C63_maximize_violated : (∃ p, maximize idealLP para (ofList [-1, 2]) = .ok p) ∧ InStar para (fun d => if d = 0 then 1 else 2) ∧
    ∀ lp, LPCorrect lp → ∀ p, maximize lp para (ofList [-1, 2]) = .ok p →
      ¬ InHalf 2 (ofList [-1, 2]).at_ (∑ d ∈ range 2, (ofList [-1, 2]).at_ d * p.at_ d) (fun d => if d = 0 then 1 else 2) := by
  refine ⟨?_, (para_mem _).2 (by norm_num), ?_⟩
  · unfold maximize callLP
    rw [if_pos (by rfl), if_pos (by decide)]
    simp only [Except.bind]
    obtain ⟨x, e1, e2⟩ := ideal_some false (⟨para.basis.cols, fun j => ∑ k ∈ range (ofList ([-1, 2] : List ℚ)).len, (-1 * (ofList ([-1, 2] : List ℚ)).at_ k) * para.basis.at_ k j⟩ : Vec ℚ) para.C para.g
      (fun j => if j = 0 then 0 else 1) ⟨(para_sat _).2 (by norm_num), by simp⟩ (by
        intro y hy
        have := (para_sat y).1 hy.1
        simp [para, ofList, sum_range_succ]
        linarith [this.1.1, this.2.2])
    rw [e1]
    dsimp only
    rw [if_pos (by rw [e2]; rfl)]
    exact ⟨_, rfl⟩
  · intro lp hlp p h
    unfold maximize callLP at h
    rw [if_pos (by rfl), if_pos (by decide)] at h
    simp only [Except.bind] at h
    split at h
    · cases h
    next x hx =>
    obtain ⟨-, f, o⟩ := hlp.sol _ _ _ _ _ (by rfl) (by rfl) hx
    split at h
    swap
    · cases h
    next hxl =>
    have hxl2 : x.len = 2 := hxl
    unfold vadd at h
    rw [if_pos (by rfl)] at h
    injection h with h; subst h
    have f' := (para_sat _).1 f.1
    have o' := o (fun j => if j = 0 then 0 else 1) ⟨(para_sat _).2 (by norm_num), by simp⟩
    simp [para, ofList, sum_range_succ] at o'
    have z0 : x.at_ 0 = 0 := by linarith [f'.1.1, f'.2.2]
    have z1 : x.at_ 1 = 1 := by linarith [f'.1.1, f'.2.2]
    unfold InHalf
    simp [para, ofList, sum_range_succ, hxl2, z0, z1]
    norm_num

/-- `C63_maximize_member` and `C63_maximize_symmetric_partial` apply to the segment. -/
example : ∃ p, maximize idealLP seg (ofList [1]) = .ok p := by
  unfold maximize callLP
  rw [if_pos (by rfl), if_pos (by decide)]
  simp only [Except.bind]
  obtain ⟨x, e1, e2⟩ := ideal_some false (⟨seg.basis.cols, fun j => ∑ k ∈ range (ofList ([1] : List ℚ)).len, (-1 * (ofList ([1] : List ℚ)).at_ k) * seg.basis.at_ k j⟩ : Vec ℚ) seg.C seg.g
    (fun _ => -1) ⟨(seg_sat _).2 (by norm_num), by simp⟩ (by
      intro y hy
      have := (seg_sat y).1 hy.1
      simp [seg, ofList]
      linarith [this.2])
  rw [e1]
  dsimp only
  rw [if_pos (by rw [e2]; rfl)]
  exact ⟨_, rfl⟩

/-- **C63** (violated). The "true center" of the segment is 0, which is not even one of its points. -/
theorem C63_center_violated (lp : Bool → Vec ℚ → Mat ℚ → Vec ℚ → LPRes ℚ) (hlp : LPCorrect lp) (l : List ℚ) (h : trueCenter lp seg = .ok l) :
    l = [0] ∧ ¬ InStar seg (fun _ => 0) := by
  obtain ⟨hl, hk⟩ := (mapM_range_ok _ _ _).1 h
  obtain ⟨y, e1, e2⟩ := hk 0 (by decide)
  obtain ⟨r, e3, rfl⟩ := (map_ok_iff _ _ _).1 e2
  obtain ⟨a, ⟨x, hx, e4⟩, ⟨x', hx', e5⟩⟩ := getMaxMin_spec lp hlp seg seg_built 0 (by decide) r e3
  have p := a (fun _ => -2) ((seg_mem _).2 (by norm_num))
  have q := a (fun _ => -1) ((seg_mem _).2 (by norm_num))
  rw [seg_mem] at hx hx'
  have f1 : r.1 = -2 := by linarith [hx.1]
  have f2 : r.2 = -1 := by linarith [hx'.2]
  have hl1 : l.length = 1 := hl
  refine ⟨?_, by rw [seg_mem]; norm_num⟩
  match l, hl1 with
  | [z], _ =>
    simp at e1
    rw [e1, f1, f2]
    norm_num

/-- The hypothesis of `C63_center_violated` is met. -/
example : ∃ l, trueCenter idealLP seg = .ok l := by
  obtain ⟨r, h⟩ := seg_minmax
  exact ⟨_, by unfold trueCenter; rw [show List.range seg.center.len = [0] from rfl]; simp only [List.mapM_cons, List.mapM_nil, h]; rfl⟩

open Classical in
/-- A solver that decides the existence of coefficients; `C61_contains_point` and the other theorems apply to it. -/
noncomputable def idealCheck (m : Nat) (ls : List (Lin ℚ)) : Bool := decide (∃ α : Nat → ℚ, ∀ l ∈ ls, l.Holds m α)

theorem idealCheck_correct : CheckCorrect idealCheck := fun m ls => by simp [idealCheck]

example : containsPoint idealCheck para (ofList [1, 2]) = .ok true ∧ containsPoint idealCheck para (ofList [1, 3]) = .ok false ∧
    containsPoint idealCheck para (ofList [1]) = .ok true := by
  refine ⟨?_, ?_, ?_⟩
  · obtain ⟨r, h1, h2⟩ := C61_contains_point idealCheck idealCheck_correct para (ofList [1, 2]) rfl
    rw [h1, h2.2 ((para_mem _).2 (by norm_num [ofList]))]
  · obtain ⟨r, h1, h2⟩ := C61_contains_point idealCheck idealCheck_correct para (ofList [1, 3]) rfl
    rw [h1]
    cases r with
    | false => rfl
    | true => have := (para_mem _).1 (h2.1 rfl); norm_num [ofList] at this
  · obtain ⟨r, h1, h2⟩ := C61_projection idealCheck idealCheck_correct para (ofList [1]) (by decide)
    rw [h1, h2.2 ⟨fun d => if d = 0 then 1 else 2, (para_mem _).2 (by norm_num), fun d hd => ?_⟩]
    have hd1 : d < 1 := hd
    interval_cases d
    rfl

open Classical in
/-- An optimizer that knows one answer: it fits the points 0 and 1/2 with the center 1/4, the vector 1 and the factor 1/4 (the smallest one). -/
noncomputable def exOpt (s : StarSet ℚ) (basis : Mat ℚ) (pts : List (Vec ℚ)) : Option (Fit ℚ) :=
  if FitOk s basis pts ⟨1 / 4, fun _ => 1 / 4, fun p _ => if p = 0 then -1 / 4 else 1 / 4⟩ then
    some ⟨1 / 4, fun _ => 1 / 4, fun p _ => if p = 0 then -1 / 4 else 1 / 4⟩ else none

theorem exOpt_correct : OptCorrect exOpt := by
  intro s basis pts f h
  unfold exOpt at h
  split at h
  · next h' => injection h with h; subst h; exact h'
  · cases h

/-- The interval from -1 to 1 in the form of the generic predicate. -/
def unitBall : StarSet ℚ := ⟨ofList [0], ⟨1, 1, fun _ _ => 1⟩, ⟨2, 1, fun i _ => if i = 0 then 1 else -1⟩, ofList [1, 1]⟩

theorem exOpt_run : genStarset exOpt (fun _ => .ok ⟨1, 1, fun _ _ => 1⟩) unitBall [ofList [0], ofList [1 / 2]] =
    .ok ⟨⟨1, fun _ => 1 / 4⟩, ⟨1, 1, fun _ _ => 1⟩, unitBall.C, ⟨2, fun i => unitBall.g.at_ i * (1 / 4)⟩⟩ := by
  have hf : FitOk unitBall ⟨1, 1, fun _ _ => 1⟩ [ofList [0], ofList [1 / 2]] ⟨1 / 4, fun _ => 1 / 4, fun p _ => if p = 0 then -1 / 4 else 1 / 4⟩ := by
    intro p x hx
    have e1 : unitBall.C.cols = 1 := rfl
    have e2 : unitBall.C.rows = 2 := rfl
    have e3 : unitBall.center.len = 1 := rfl
    rw [e1, e2, e3]
    match p with
    | 0 =>
      simp at hx; subst hx
      refine ⟨fun d hd => ?_, fun i hi => ?_⟩
      · interval_cases d; norm_num [ofList]
      · interval_cases i <;> norm_num [unitBall, ofList]
    | 1 =>
      simp at hx; subst hx
      refine ⟨fun d hd => ?_, fun i hi => ?_⟩
      · interval_cases d; norm_num [ofList]
      · interval_cases i <;> norm_num [unitBall, ofList]
    | p + 2 => simp at hx
  unfold genStarset postContPca pcaRound
  simp only [Except.bind]
  rw [if_neg (by simp), if_neg (by decide), if_neg (by decide)]
  have : exOpt unitBall ⟨1, 1, fun _ _ => 1⟩ [ofList [0], ofList [1 / 2]] = some ⟨1 / 4, fun _ => 1 / 4, fun p _ => if p = 0 then -1 / 4 else 1 / 4⟩ := by
    unfold exOpt; rw [if_pos hf]
  rw [this]
  rfl

/-- `C62_retry` applies: the unit interval. -/
example : ∃ s', newPred unitBall = .ok s' := ⟨_, rfl⟩

/-- `C62_retry_violated` applies: three inequalities, and no fit. -/
example : pcaRound (fun _ _ _ => none) (⟨⟨1, fun _ => 0⟩, ⟨1, 1, fun _ _ => 1⟩, ⟨3, 1, fun _ _ => 1⟩, ⟨3, fun _ => 1⟩⟩ : StarSet ℚ) ⟨1, 1, fun _ _ => 1⟩
    [ofList [0]] = .ok none ∧ (3 : Nat) ≠ 1 * 2 := ⟨rfl, by decide⟩

/-- `C62_points` and `C62_tube` apply. -/
example : ∃ stars, starsPostSim exOpt (fun _ => .ok ⟨1, 1, fun _ _ => 1⟩) (fun x => .ok [(0, x)]) unitBall [ofList [0], ofList [1 / 2]] = .ok stars := by
  suffices h : ∃ st, starsPostSim exOpt (fun _ => .ok ⟨1, 1, fun _ _ => 1⟩) (fun x => .ok [(0, x)]) unitBall [ofList [0], ofList [1 / 2]] =
      (genStarset exOpt (fun _ => .ok ⟨1, 1, fun _ _ => 1⟩) unitBall [ofList [0], ofList [1 / 2]]).bind (fun st => Except.ok [st]) ∧ 
      genStarset exOpt (fun _ => .ok ⟨1, 1, fun _ _ => 1⟩) unitBall [ofList [0], ofList [1 / 2]] = .ok st by
    obtain ⟨st, h1, h2⟩ := h
    exact ⟨[st], by rw [h1, h2]; rfl⟩
  refine ⟨_, ?_, exOpt_run⟩
  unfold starsPostSim
  have e : List.mapM (m := Except String) (fun x : Vec ℚ => Except.ok [((0 : ℚ), x)]) [ofList [0], ofList [1 / 2]] = .ok [[(0, ofList [0])], [(0, ofList [1 / 2])]] := rfl
  rw [e]
  rfl

/-- **C62** (violated). A state that was not sampled need not be in the star: the initial interval from -1 to 1 contains 1, the star for the
samples 0 and 1/2 does not, even if nothing moves. -/
theorem C62_unsampled_violated : ∃ st, genStarset exOpt (fun _ => .ok ⟨1, 1, fun _ _ => 1⟩) unitBall [ofList [0], ofList [1 / 2]] = .ok st ∧
    InStar unitBall (fun _ => 1) ∧ ¬ InStar st (fun _ => 1) := by
  refine ⟨_, exOpt_run, ⟨fun _ => 1, fun i hi => ?_, fun d hd => ?_⟩, ?_⟩
  · have hi2 : i < 2 := hi
    interval_cases i <;> norm_num [unitBall, ofList]
  · have hd2 : d < 1 := hd
    interval_cases d; norm_num [unitBall, ofList]
  · rintro ⟨α, h1, h2⟩
    have a := h1 0 (by decide)
    have b := h2 0 (by decide)
    norm_num [unitBall, ofList] at a b
    linarith

/-- **C64** (violated). With segments of one star, the tube of two initial stars is that of the first one: here the second one,
the interval from 0 to 1, is not covered. -/
theorem C64_segments_violated : ∃ tube, fullStars (combineStars idealLP stdBox) (fun s => .ok [(0, s)]) 1 [seg, unit1 [1, 0]] = .ok tube ∧
    InStar (unit1 [1, 0]) (fun _ => 1) ∧ ∀ e ∈ tube, ¬ InStar e.2 (fun _ => 1) := by
  refine ⟨[(0, seg)], rfl, ⟨fun _ => 1, (unit1_sat 1 _).2 (by norm_num), fun d hd => ?_⟩, ?_⟩
  · have hd2 : d < 1 := hd
    interval_cases d; norm_num [unit1, ofList]
  · intro e he
    simp at he; subst he
    rw [seg_mem]; norm_num

/-- `C64_one_segment_partial` applies. -/
example : ∃ tube, fullStars (combineStars idealLP stdBox) (fun s => .ok [(0, s)]) 1000 [seg] = .ok tube := ⟨[(0, seg)], rfl⟩

end Verif.Props
