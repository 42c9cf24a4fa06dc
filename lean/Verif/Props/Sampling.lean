import Verif.Model.Sampling
import Verif.Props.Star

/-!
C101: sampling from star sets.
-/

set_option autoImplicit false
set_option linter.unusedSectionVars false

namespace Verif.Props
open Verif Verif.Stars Finset

section
variable {K : Type} [Field K] [LinearOrder K]

/-- The draws before the `k`-th that are in the star set, in order. -/
def Hits (s : StarSet K) (draw : Nat → Vec K) (k : Nat) (pts : List (Vec K)) : Prop :=
  ∃ idx : List Nat, idx.Pairwise (· < ·) ∧ (∀ i, i ∈ idx ↔ i < k ∧ InStar s (draw i).at_) ∧ pts = idx.map draw

theorem sampleLoop_spec (check : Nat → List (Lin K) → Bool) (hc : CheckCorrect check) (s : StarSet K) (hs : Built s) (r : List (K × K)) (hr : r.length = s.center.len)
    (u : Nat → Nat → K) (N lim : Nat) (pts : List (Vec K)) (misses k : Nat) (hm : misses ≤ lim) (hmk : misses ≤ k) (hN : pts.length ≤ N)
    (hmiss : ∀ i < misses, ¬ InStar s (drawPoint r u (k - misses + i)).at_) (hits : Hits s (drawPoint r u) k pts) (hk : k ≤ pts.length * (lim + 1) + misses) (hz : misses = 0 ∨ pts.length < N) :
    (∃ pts' k', sampleLoop check s r u N lim pts misses k = .ok (pts', k') ∧ pts'.length = N ∧ Hits s (drawPoint r u) k' pts' ∧ k' ≤ N * (lim + 1)) ∨
    (sampleLoop check s r u N lim pts misses k = .error "Too many consecutive misses" ∧ ∃ j, j + lim < N * (lim + 1) ∧ ∀ i ≤ lim, ¬ InStar s (drawPoint r u (j + i)).at_) := by
  fun_induction sampleLoop check s r u N lim pts misses k with
  | case1 pts misses k h e he =>
    obtain ⟨b, hb, -⟩ := C61_containment_poly check hc s hs (drawPoint r u k) (by simp [drawPoint, hr])
    rw [hb] at he
    cases he
  | case2 pts misses k h he ih =>
    obtain ⟨b, hb, hi⟩ := C61_containment_poly check hc s hs (drawPoint r u k) (by simp [drawPoint, hr])
    rw [hb] at he
    cases he
    refine ih (Nat.zero_le _) (Nat.zero_le _) (by simp; omega) (by simp) ?_ ?_ (Or.inl rfl)
    · obtain ⟨idx, h1, h2, h3⟩ := hits
      refine ⟨idx ++ [k], ?_, ?_, by rw [h3]; simp⟩
      · rw [List.pairwise_append]
        refine ⟨h1, by simp, ?_⟩
        intro a ha b hb
        rw [List.mem_singleton] at hb
        rw [hb]
        exact ((h2 a).1 ha).1
      · intro i
        rw [List.mem_append, h2, List.mem_singleton]
        constructor
        · rintro (⟨a, b⟩ | rfl)
          · exact ⟨by omega, b⟩
          · exact ⟨by omega, hi.1 rfl⟩
        · rintro ⟨a, b⟩
          by_cases hik : i = k
          · exact Or.inr hik
          · exact Or.inl ⟨by omega, b⟩
    · rw [List.length_append, List.length_singleton, Nat.add_mul]
      omega
  | case3 pts misses k h he hl =>
    obtain ⟨b, hb, hi⟩ := C61_containment_poly check hc s hs (drawPoint r u k) (by simp [drawPoint, hr])
    rw [hb] at he
    cases he
    have hk0 : ¬ InStar s (drawPoint r u k).at_ := fun h => by simpa using hi.2 h
    refine Or.inr ⟨rfl, k - misses, ?_, ?_⟩
    · have : (pts.length + 1) * (lim + 1) ≤ N * (lim + 1) := Nat.mul_le_mul_right _ h
      rw [Nat.add_mul] at this
      omega
    · intro i hil
      by_cases hlt : i < misses
      · exact hmiss i hlt
      · have : k - misses + i = k := by omega
        rw [this]
        exact hk0
  | case4 pts misses k h he hl ih =>
    obtain ⟨b, hb, hi⟩ := C61_containment_poly check hc s hs (drawPoint r u k) (by simp [drawPoint, hr])
    rw [hb] at he
    cases he
    have hk0 : ¬ InStar s (drawPoint r u k).at_ := fun h => by simpa using hi.2 h
    refine ih (by omega) (by omega) (by omega) ?_ ?_ (by omega) (Or.inr h)
    · intro i hlt
      by_cases hlt' : i < misses
      · have := hmiss i hlt'
        have e : k + 1 - (misses + 1) + i = k - misses + i := by omega
        rw [e]
        exact this
      · have e : k + 1 - (misses + 1) + i = k := by omega
        rw [e]
        exact hk0
    · obtain ⟨idx, h1, h2, h3⟩ := hits
      refine ⟨idx, h1, fun i => ?_, h3⟩
      rw [h2]
      constructor
      · rintro ⟨a, b⟩; exact ⟨by omega, b⟩
      · rintro ⟨a, b⟩
        refine ⟨?_, b⟩
        by_cases hik : i = k
        · subst hik; exact absurd b hk0
        · omega
  | case5 pts misses k h =>
    have : pts.length = N := by omega
    refine Or.inl ⟨pts, k, rfl, this, hits, ?_⟩
    have : misses = 0 := by omega
    rw [this] at hk
    have : pts.length * (lim + 1) = N * (lim + 1) := by congr 1
    omega

variable [IsStrictOrderedRing K] [FloorRing K]

/-- **C101**. If `sample_star` returns, it returns as many points as asked for, all of them in the star set. They are exactly the drawn points that are in
the star set, in the order of the draws, and there were at most `N * (int(N * tol) + 1)` draws. -/
theorem C101_sample (lp : Bool → Vec K → Mat K → Vec K → LPRes K) (hlp : LPCorrect lp) (check : Nat → List (Lin K) → Bool) (hc : CheckCorrect check) (u : Nat → Nat → K)
    (s : StarSet K) (hs : Built s) (N : Nat) (tol : K) (pts : List (Vec K)) (k : Nat) (h : sampleStar lp check u s N tol = .ok (pts, k)) :
    pts.length = N ∧ (∀ p ∈ pts, p.len = s.center.len ∧ InStar s p.at_) ∧ k ≤ N * (⌊(N : K) * tol⌋.toNat + 1) ∧
      ∃ r, overapprox lp s = .ok r ∧ Hits s (drawPoint r u) k pts := by
  unfold sampleStar at h
  obtain ⟨r, hr, h⟩ := (bind_ok_iff _ _ _).1 h
  obtain ⟨hl, -⟩ := C42_rectangle lp hlp s hs r hr
  rcases sampleLoop_spec check hc s hs r hl u N ⌊(N : K) * tol⌋.toNat [] 0 0 (by omega) (by omega) (by simp) (by simp) ⟨[], by simp, by simp, rfl⟩ (by simp) (Or.inl rfl) with
    ⟨p, k', e, h1, h2, h3⟩ | ⟨e, -⟩
  · rw [h] at e
    cases e
    refine ⟨h1, ?_, h3, r, hr, h2⟩
    obtain ⟨idx, -, i2, rfl⟩ := h2
    intro p hp
    obtain ⟨i, hi, rfl⟩ := List.mem_map.1 hp
    exact ⟨hl, ((i2 i).1 hi).2⟩
  · rw [h] at e
    cases e

/-- **C101**. `sample_star` ends for all sequences of random numbers. Once the rectangle is known, an exception means that `int(N * tol) + 1` draws in a row
were outside of the star set. -/
theorem C101_fails (lp : Bool → Vec K → Mat K → Vec K → LPRes K) (hlp : LPCorrect lp) (check : Nat → List (Lin K) → Bool) (hc : CheckCorrect check) (u : Nat → Nat → K)
    (s : StarSet K) (hs : Built s) (N : Nat) (tol : K) (r : List (K × K)) (hr : overapprox lp s = .ok r) (e : String) (h : sampleStar lp check u s N tol = .error e) :
    e = "Too many consecutive misses" ∧ ∃ j, j + ⌊(N : K) * tol⌋.toNat < N * (⌊(N : K) * tol⌋.toNat + 1) ∧
      ∀ i ≤ ⌊(N : K) * tol⌋.toNat, ¬ InStar s (drawPoint r u (j + i)).at_ := by
  unfold sampleStar at h
  rw [hr] at h
  change sampleLoop check s r u N _ [] 0 0 = _ at h
  obtain ⟨hl, -⟩ := C42_rectangle lp hlp s hs r hr
  rcases sampleLoop_spec check hc s hs r hl u N ⌊(N : K) * tol⌋.toNat [] 0 0 (by omega) (by omega) (by simp) (by simp) ⟨[], by simp, by simp, rfl⟩ (by simp) (Or.inl rfl) with
    ⟨p, k', e', -⟩ | ⟨e', h'⟩
  · rw [h] at e'
    cases e'
  · rw [h] at e'
    cases e'
    exact ⟨rfl, h'⟩

/-- **C101**. For a star set that fills its rectangle no draw is lost: the result is always the first `N` draws. -/
theorem C101_box (lp : Bool → Vec K → Mat K → Vec K → LPRes K) (hlp : LPCorrect lp) (check : Nat → List (Lin K) → Bool) (hc : CheckCorrect check) (u : Nat → Nat → K)
    (hu : ∀ k d, 0 ≤ u k d ∧ u k d ≤ 1) (s : StarSet K) (hs : Built s) (N : Nat) (tol : K) (r : List (K × K)) (hr : overapprox lp s = .ok r)
    (hbox : ∀ x : Nat → K, (∀ (d : Nat) (b : K × K), r[d]? = some b → b.1 ≤ x d ∧ x d ≤ b.2) → InStar s x) :
    ∃ k, sampleStar lp check u s N tol = .ok ((List.range N).map (drawPoint r u), k) := by
  obtain ⟨hl, hb⟩ := C42_rectangle lp hlp s hs r hr
  have hin : ∀ k, InStar s (drawPoint r u k).at_ := by
    intro k
    refine hbox _ fun d b hd => ?_
    have hdl : d < s.center.len := by
      rw [← hl]
      by_contra hh
      rw [List.getElem?_eq_none (by omega)] at hd
      cases hd
    obtain ⟨lo, hi, e, f1, ⟨x, f2, f3⟩, -⟩ := hb d hdl
    rw [hd] at e
    cases e
    have hlh : lo ≤ hi := (f1 x f2).1.trans (f1 x f2).2
    have e : (drawPoint r u k).at_ d = lo + (hi - lo) * u k d := by simp only [drawPoint, hd]
    rw [e]
    obtain ⟨u0, u1⟩ := hu k d
    have h0 : 0 ≤ hi - lo := sub_nonneg.2 hlh
    constructor
    · exact le_add_of_nonneg_right (mul_nonneg h0 u0)
    · calc lo + (hi - lo) * u k d ≤ lo + (hi - lo) * 1 := by gcongr
        _ = hi := by ring
  cases h : sampleStar lp check u s N tol with
  | error e =>
    obtain ⟨-, j, -, hj⟩ := C101_fails lp hlp check hc u s hs N tol r hr e h
    exact absurd (hin _) (hj 0 (Nat.zero_le _))
  | ok p =>
    obtain ⟨pts, k⟩ := p
    obtain ⟨h1, -, -, r', hr', idx, i1, i2, rfl⟩ := C101_sample lp hlp check hc u s hs N tol pts k h
    rw [hr] at hr'
    cases hr'
    have e : idx = List.range k := by
      refine List.Perm.eq_of_pairwise (le := (· < ·)) (fun a b _ _ h1 h2 => by omega) i1 List.pairwise_lt_range ?_
      rw [List.perm_ext_iff_of_nodup (i1.imp fun h => Nat.ne_of_lt h) List.nodup_range]
      intro i
      rw [i2, List.mem_range]
      exact ⟨And.left, fun h => ⟨h, hin i⟩⟩
    subst e
    rw [List.length_map, List.length_range] at h1
    subst h1
    exact ⟨k, rfl⟩

/-- **C101** (tubes from simulations). The stars are computed from `N` states in the initial star set, and contain the simulated states of all of them. -/
theorem C101_tube (lp : Bool → Vec K → Mat K → Vec K → LPRes K) (hlp : LPCorrect lp) (check : Nat → List (Lin K) → Bool) (hc : CheckCorrect check) (u : Nat → Nat → K)
    (opt : StarSet K → Mat K → List (Vec K) → Option (Fit K)) (hopt : OptCorrect opt) (pca : List (Vec K) → Except String (Mat K)) (sim : Vec K → Except String (List (K × Vec K)))
    (s : StarSet K) (hs : Built s) (N : Nat) (stars : List (StarSet K)) (h : postSim lp check u opt pca sim s N = .ok stars) :
    ∃ pts : List (Vec K), pts.length = N ∧ 0 < N ∧ ∀ p ∈ pts, InStar s p.at_ ∧ ∃ tr, sim p = .ok tr ∧ tr.length = stars.length ∧
      ∀ (k : Nat) (st : StarSet K) (y : K × Vec K), stars[k]? = some st → tr[k]? = some y → InStar st y.2.at_ := by
  unfold postSim at h
  obtain ⟨⟨pts, k⟩, h1, h2⟩ := (bind_ok_iff _ _ _).1 h
  obtain ⟨a, b, -⟩ := C101_sample lp hlp check hc u s hs N _ pts k h1
  refine ⟨pts, a, ?_, fun p hp => ⟨(b p hp).2, C62_tube opt hopt pca sim s pts stars h2 p hp⟩⟩
  cases pts with
  | nil => cases h2
  | cons => rw [← a]; simp

end

/-! ### Cases -/

/-- The segment from (-1, -1) to (1, 1). -/
def diag : StarSet ℚ := ⟨ofList [0, 0], ⟨1, 2, fun _ _ => 1⟩, ⟨2, 1, fun i _ => if i = 0 then 1 else -1⟩, ofList [1, 1]⟩

theorem diag_built : Built diag := rfl

theorem diag_mem (x : Nat → ℚ) : InStar diag x ↔ x 0 = x 1 ∧ -1 ≤ x 0 ∧ x 0 ≤ 1 := by
  constructor
  · rintro ⟨α, h, hx⟩
    have a := hx 0 (by decide)
    have b := hx 1 (by decide)
    have c := h 0 (by decide)
    have d := h 1 (by decide)
    simp [diag, sum_range_succ, ofList] at a b c d
    rw [a, b]
    exact ⟨rfl, by linarith, by linarith⟩
  · rintro ⟨h1, h2, h3⟩
    refine ⟨fun _ => x 0, fun i hi => ?_, fun d hd => ?_⟩
    · have hi2 : i < 2 := hi
      interval_cases i <;> simp [diag, ofList] <;> linarith
    · have hd2 : d < 2 := hd
      interval_cases d <;> simp [diag, ofList]
      exact h1.symm

theorem diag_rect (lp : Bool → Vec ℚ → Mat ℚ → Vec ℚ → LPRes ℚ) (hlp : LPCorrect lp) (r : List (ℚ × ℚ)) (h : overapprox lp diag = .ok r) : r = [(-1, 1), (-1, 1)] := by
  obtain ⟨hl, hb⟩ := C42_rectangle lp hlp diag diag_built r h
  have key : ∀ d : Nat, d < 2 → r[d]? = some ((-1 : ℚ), (1 : ℚ)) := by
    intro d hd
    obtain ⟨lo, hi, e, f, ⟨x, x1, x2⟩, ⟨y, y1, y2⟩⟩ := hb d hd
    have p := f (fun _ => -1) ((diag_mem _).2 (by norm_num))
    have q := f (fun _ => 1) ((diag_mem _).2 (by norm_num))
    rw [diag_mem] at x1 y1
    rw [e]
    have e1 : lo = -1 := by
      interval_cases d
      · linarith [x1.2.1, p.1]
      · linarith [x1.2.1, x1.1, p.1]
    have e2 : hi = 1 := by
      interval_cases d
      · linarith [y1.2.2, q.2]
      · linarith [y1.2.2, y1.1, q.2]
    rw [e1, e2]
  have hl2 : r.length = 2 := hl
  match r, hl2 with
  | [a, b], _ =>
    have k0 := key 0 (by omega)
    have k1 := key 1 (by omega)
    simp only [List.getElem?_cons_zero, List.getElem?_cons_succ, Option.some.injEq] at k0 k1
    rw [k0, k1]

theorem diag_range (i : Nat) (hi : i < 2) : ∃ r, getMaxMin idealLP diag i = .ok r := by
  have hf : ∀ y, LPFeas false diag.C diag.g y → -1 ≤ y 0 ∧ y 0 ≤ 1 := by
    rintro y ⟨hy, -⟩
    have a := hy 0 (by decide)
    have b := hy 1 (by decide)
    simp [diag, ofList] at a b
    exact ⟨by linarith, by linarith⟩
  have hfeas : ∀ c : ℚ, -1 ≤ c → c ≤ 1 → LPFeas false diag.C diag.g (fun _ => c) := by
    intro c h1 h2
    refine ⟨fun i hi => ?_, by simp⟩
    have hi2 : i < 2 := hi
    interval_cases i <;> simp [diag, ofList] <;> linarith
  refine getMaxMin_ideal diag diag_built i hi (fun _ => -1) (fun _ => 1) (hfeas _ (by norm_num) (by norm_num))
    (hfeas _ (by norm_num) (by norm_num)) ?_ ?_
  · intro y hy
    have := hf y hy
    simp [diag]
    linarith
  · intro y hy
    have := hf y hy
    simp [diag]
    linarith

theorem diag_runs : overapprox idealLP diag = .ok [(-1, 1), (-1, 1)] := by
  obtain ⟨a, ha⟩ := diag_range 0 (by omega)
  obtain ⟨b, hb⟩ := diag_range 1 (by omega)
  have h : overapprox idealLP diag = .ok [a, b] := by
    unfold overapprox
    rw [show List.range diag.center.len = [0, 1] from rfl]
    simp only [List.mapM_cons, List.mapM_nil, ha, hb]
    rfl
  rw [h, diag_rect idealLP idealLP_correct _ h]

/-- The second draw is outside of the segment. -/
def exRandom (k d : Nat) : ℚ := if k = 1 ∧ d = 0 then 0 else 1 / 2

theorem ex_contained (k : Nat) : containmentPoly idealCheck diag (drawPoint [(-1, 1), (-1, 1)] exRandom k) = .ok (decide (k ≠ 1)) := by
  obtain ⟨b, hb, hi⟩ := C61_containment_poly idealCheck idealCheck_correct diag diag_built (drawPoint [(-1, 1), (-1, 1)] exRandom k) rfl
  rw [hb]
  congr 1
  rw [Bool.eq_iff_iff, hi, diag_mem, decide_eq_true_iff]
  by_cases hk : k = 1
  · subst hk
    norm_num [drawPoint, exRandom]
  · norm_num [drawPoint, exRandom, hk]

theorem ex_run : sampleStar idealLP idealCheck exRandom diag 2 (1 / 2) =
    .ok ([drawPoint [(-1, 1), (-1, 1)] exRandom 0, drawPoint [(-1, 1), (-1, 1)] exRandom 2], 3) := by
  unfold sampleStar
  rw [diag_runs]
  show sampleLoop _ _ _ _ _ _ _ _ _ = _
  rw [show ⌊((2 : Nat) : ℚ) * (1 / 2)⌋.toNat = 1 from by norm_num]
  rw [sampleLoop, ex_contained]
  simp
  rw [sampleLoop, ex_contained]
  simp
  rw [sampleLoop, ex_contained]
  simp
  rw [sampleLoop]
  simp

/-- `C101_sample` applies. -/
example : Built diag ∧ ∃ p, sampleStar idealLP idealCheck exRandom diag 2 (1 / 2) = .ok p := ⟨diag_built, _, ex_run⟩

/-- **C101** is violated for flat star sets: the segment has points, but unless two random numbers coincide no draw is in it, and sampling ends in an
exception, for every number of points and every tolerance. -/
theorem C101_flat_violated (lp : Bool → Vec ℚ → Mat ℚ → Vec ℚ → LPRes ℚ) (hlp : LPCorrect lp) (r : List (ℚ × ℚ)) (hr : overapprox lp diag = .ok r)
    (check : Nat → List (Lin ℚ) → Bool) (hc : CheckCorrect check) (u : Nat → Nat → ℚ) (hu : ∀ k, u k 0 ≠ u k 1) (N : Nat) (hN : 0 < N) (tol : ℚ) :
    (∃ x, InStar diag x) ∧ sampleStar lp check u diag N tol = .error "Too many consecutive misses" := by
  refine ⟨⟨fun _ => 0, (diag_mem _).2 (by norm_num)⟩, ?_⟩
  cases h : sampleStar lp check u diag N tol with
  | error e => rw [(C101_fails lp hlp check hc u diag diag_built N tol r hr e h).1]
  | ok p =>
    obtain ⟨pts, k⟩ := p
    obtain ⟨h1, -, -, r', hr', idx, i1, i2, rfl⟩ := C101_sample lp hlp check hc u diag diag_built N tol pts k h
    have hr2 := diag_rect lp hlp r' hr'
    subst hr2
    rw [List.length_map] at h1
    cases idx with
    | nil => simp at h1; omega
    | cons i idx =>
      have := ((i2 i).1 (by simp)).2
      rw [diag_mem] at this
      simp [drawPoint] at this
      rcases this.1 with h0 | h0
      · exact absurd h0 (hu i)
      · norm_num at h0

/-- `C101_fails` and `C101_flat_violated` apply: two different random numbers in each draw. -/
example : sampleStar idealLP idealCheck (fun _ d => if d = 0 then 0 else 1 / 2) diag 5 (1 / 5) = .error "Too many consecutive misses" :=
  (C101_flat_violated idealLP idealLP_correct _ diag_runs idealCheck idealCheck_correct _ (by norm_num) 5 (by norm_num) _).2

theorem ball_built : Built unitBall := rfl

theorem ball_mem (x : Nat → ℚ) : InStar unitBall x ↔ -1 ≤ x 0 ∧ x 0 ≤ 1 := by
  constructor
  · rintro ⟨α, h, hx⟩
    have a := hx 0 (by decide)
    have c := h 0 (by decide)
    have d := h 1 (by decide)
    simp [unitBall, ofList] at a c d
    rw [a]
    exact ⟨by linarith, by linarith⟩
  · rintro ⟨h2, h3⟩
    refine ⟨fun _ => x 0, fun i hi => ?_, fun d hd => ?_⟩
    · have hi2 : i < 2 := hi
      interval_cases i <;> simp [unitBall, ofList] <;> linarith
    · have hd2 : d < 1 := hd
      interval_cases d
      simp [unitBall, ofList]

theorem ball_runs : overapprox idealLP unitBall = .ok [(-1, 1)] := by
  have hf : ∀ y, LPFeas false unitBall.C unitBall.g y → -1 ≤ y 0 ∧ y 0 ≤ 1 := by
    rintro y ⟨hy, -⟩
    have a := hy 0 (by decide)
    have b := hy 1 (by decide)
    simp [unitBall, ofList] at a b
    exact ⟨by linarith, by linarith⟩
  have hfeas : ∀ c : ℚ, -1 ≤ c → c ≤ 1 → LPFeas false unitBall.C unitBall.g (fun _ => c) := by
    intro c h1 h2
    refine ⟨fun i hi => ?_, by simp⟩
    have hi2 : i < 2 := hi
    interval_cases i <;> simp [unitBall, ofList] <;> linarith
  obtain ⟨⟨lo, hi⟩, ha⟩ := getMaxMin_ideal unitBall ball_built 0 (by decide) (fun _ => -1) (fun _ => 1) (hfeas _ (by norm_num) (by norm_num))
    (hfeas _ (by norm_num) (by norm_num))
    (by
      intro y hy
      have := hf y hy
      simp [unitBall]
      linarith)
    (by
      intro y hy
      have := hf y hy
      simp [unitBall]
      linarith)
  have h : overapprox idealLP unitBall = .ok [(lo, hi)] := by
    unfold overapprox
    rw [show List.range unitBall.center.len = [0] from rfl]
    simp only [List.mapM_cons, List.mapM_nil, ha]
    rfl
  obtain ⟨-, hb⟩ := C42_rectangle idealLP idealLP_correct unitBall ball_built _ h
  obtain ⟨lo', hi', e, f, ⟨x, x1, x2⟩, ⟨y, y1, y2⟩⟩ := hb 0 (by decide)
  simp only [List.getElem?_cons_zero, Option.some.injEq, Prod.mk.injEq] at e
  obtain ⟨rfl, rfl⟩ := e
  have p := f (fun _ => -1) ((ball_mem _).2 (by norm_num))
  have q := f (fun _ => 1) ((ball_mem _).2 (by norm_num))
  rw [ball_mem] at x1 y1
  rw [h, show lo = -1 by linarith [p.1], show hi = 1 by linarith [q.2]]

/-- Random numbers that give the points 0 and 1/2. -/
def ballRandom (k _ : Nat) : ℚ := if k = 0 then 1 / 2 else 3 / 4

/-- `C101_box` applies. -/
theorem ball_sample : ∃ k, sampleStar idealLP idealCheck ballRandom unitBall 2 (1 / 5) = .ok ([ofList [0], ofList [1 / 2]], k) := by
  obtain ⟨k, h⟩ := C101_box idealLP idealLP_correct idealCheck idealCheck_correct ballRandom
    (by intro k d; unfold ballRandom; split <;> norm_num) unitBall ball_built 2 (1 / 5) _ ball_runs (by
      intro x hx
      have := hx 0 (-1, 1) rfl
      exact (ball_mem x).2 this)
  refine ⟨k, h.trans ?_⟩
  have e : ∀ k : Nat, ∀ v : ℚ, -1 + (1 - -1) * ballRandom k 0 = v → drawPoint [(-1, 1)] ballRandom k = ofList [v] := by
    rintro k v rfl
    unfold drawPoint ofList
    congr 1
    funext d
    cases d <;> simp
  rw [show List.range 2 = [0, 1] from rfl, List.map_cons, List.map_cons, List.map_nil, e 0 0 (by norm_num [ballRandom]), e 1 (1 / 2) (by norm_num [ballRandom])]

/-- `C101_tube` applies. -/
example : ∃ stars, postSim idealLP idealCheck ballRandom exOpt (fun _ => .ok ⟨1, 1, fun _ _ => 1⟩) (fun x => .ok [(0, x)]) unitBall 2 = .ok stars := by
  obtain ⟨k, h⟩ := ball_sample
  unfold postSim
  rw [h]
  refine ⟨[⟨⟨1, fun _ => 1 / 4⟩, ⟨1, 1, fun _ _ => 1⟩, unitBall.C, ⟨2, fun i => unitBall.g.at_ i * (1 / 4)⟩⟩], ?_⟩
  have : starsPostSim exOpt (fun _ => .ok ⟨1, 1, fun _ _ => 1⟩) (fun x => .ok [(0, x)]) unitBall [ofList [0], ofList [1 / 2]] =
      (genStarset exOpt (fun _ => .ok ⟨1, 1, fun _ _ => 1⟩) unitBall [ofList [0], ofList [1 / 2]]).bind (fun st => Except.ok [st]) := rfl
  rw [exOpt_run] at this
  exact this

end Verif.Props
