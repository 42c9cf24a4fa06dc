import Verif.Proofs.DryvrGlobal
import Verif.Props.Dryvr
import Mathlib.Tactic.IntervalCases
import Mathlib.Tactic.NormNum

/-!
C40 for the method `GLOBAL`.
-/

set_option autoImplicit false

namespace Verif.Props
open Verif.Dry Verif.Proofs.DryG

theorem forall₂_range {n : Nat} {f g : Nat → ℝ} (h : ∀ c < n, f c ≤ g c) : List.Forall₂ (· ≤ ·) ((List.range n).map f) ((List.range n).map g) := by
  rw [List.forall₂_map_left_iff, List.forall₂_map_right_iff, List.forall₂_same]
  exact fun c hc => h c (List.mem_range.1 hc)

theorem delta_nonneg {lo hi : List ℝ} (h : List.Forall₂ (· ≤ ·) lo hi) (d : Nat) : 0 ≤ (delta lo hi)[d]?.getD 0 := by
  rcases hd : (delta lo hi)[d]? with _ | x
  · simp
  · unfold delta at hd
    rw [List.getElem?_zipWith_eq_some] at hd
    obtain ⟨l, u, h1, h2, rfl⟩ := hd
    have h3 := (List.forall₂_iff_get.1 h).2 d (List.getElem?_eq_some_iff.1 h1).1 (List.getElem?_eq_some_iff.1 h2).1
    simp only [List.get_eq_getElem] at h3
    rw [(List.getElem?_eq_some_iff.1 h1).2, (List.getElem?_eq_some_iff.1 h2).2] at h3
    simp only [Option.getD_some]
    linarith

/-- The discrepancies of the method `GLOBAL` are at least those of the method `PW`, and the checks of the latter succeed. -/
theorem global_df {hull : List (ℝ × ℝ) → Except String (List Nat)} (hhull : ∀ pts vs, hull pts = .ok vs → IsHull pts vs) {small : ℝ → Bool}
    {eps : ℝ} (heps : 0 < eps) {sim : List ℝ → List (List ℝ)} {lo hi : List ℝ} (hbox : List.Forall₂ (· ≤ ·) lo hi) {rnd : List (List ℝ)}
    (hstart : ∀ p, (sim (center lo hi))[0]? = some p → p[0]? = some 0)
    (htime : ∀ (j k : Nat) (p q : List ℝ) (s t : ℝ), j < k → (sim (center lo hi))[j]? = some p → (sim (center lo hi))[k]? = some q → p[0]? = some s → q[0]? = some t → s < t)
    {a : Arr ℝ} (ha : toArr (traces sim lo hi rnd) = .ok a)
    (hc1 : ∀ i < a.n, ∀ k < a.len, a.at_ 0 k 0 = a.at_ i k 0) (hc2 : (delta lo hi).length + 1 = a.dims) (hc3 : 2 ≤ a.n) (hc4 : 2 ≤ a.len)
    {fs : List (Nat → ℝ)} (hfs : (List.range (a.dims - 1)).mapM (dimDf hull small eps a (delta lo hi)) = .ok fs) :
    (∀ k < a.len, ∀ c < a.dims, df eps small a (delta lo hi) k c ≤ (if c = 0 then 0 else (fs[c - 1]?.getD (fun _ => 0)) k)) ∧
      checks eps small a (delta lo hi) = true := by
  have hfor := (mapM_ok_iff _ _ _).1 hfs
  have hrn := delta_nonneg hbox
  -- the times of the center trace
  obtain ⟨h1, h2, h3, h4⟩ := toArr_spec ha
  have hrow : ∀ k < a.len, ∃ p, (sim (center lo hi))[k]? = some p ∧ p[0]? = some (a.at_ 0 k 0) := by
    intro k hk
    have hlt : 0 < (traces sim lo hi rnd).length := by rw [traces, trim_length]; simp
    have ht' := List.getElem?_eq_getElem hlt
    obtain ⟨n, t0, h0, e⟩ := trim_get ht'
    simp only [List.getElem?_cons_zero, Option.some.injEq] at h0
    subst h0
    have hm := h3 _ (List.mem_of_getElem? ht')
    have hk' : k < ((traces sim lo hi rnd)[0]).length := by rw [hm.1]; exact hk
    have hr := List.getElem?_eq_getElem hk'
    refine ⟨((traces sim lo hi rnd)[0])[k], ?_, h4 0 k 0 _ _ ht' hr (by omega)⟩
    rw [← hr, e]
    rw [e] at hk'
    rw [List.getElem?_take_of_lt (by simp at hk'; omega)]
  have ht0 : a.at_ 0 0 0 = 0 := by
    obtain ⟨p, hp, hp0⟩ := hrow 0 (by omega)
    have := hstart p hp
    rw [hp0] at this
    injection this
  have hinc : ∀ j k, j < k → k < a.len → a.at_ 0 j 0 < a.at_ 0 k 0 := by
    intro j k hjk hk
    obtain ⟨p, hp, hp0⟩ := hrow j (by omega)
    obtain ⟨q, hq, hq0⟩ := hrow k hk
    exact htime j k p q _ _ hjk hp hq hp0 hq0
  have hge : ∀ k < a.len, ∀ c < a.dims, df eps small a (delta lo hi) k c ≤ (if c = 0 then 0 else (fs[c - 1]?.getD (fun _ => 0)) k) := by
    intro k hk c hc
    rcases Nat.eq_zero_or_pos c with rfl | h0
    · simp [df]
    · rw [if_neg (by omega)]
      have hlen : (List.range (a.dims - 1)).length = fs.length := hfor.length_eq
      rw [List.length_range] at hlen
      have hfc := (List.forall₂_iff_get.1 hfor).2 (c - 1) (by simp; omega) (by omega)
      simp only [List.get_eq_getElem, List.getElem_range] at hfc
      rw [List.getElem?_eq_getElem (show c - 1 < fs.length by omega), Option.getD_some]
      have := dimDf_ge hfc (fun vs hv => hhull _ _ hv) hc4 hinc ht0 (hrn _) k hk
      rwa [Nat.sub_add_cancel h0] at this
  have hsens : ∀ c k, 0 ≤ sens eps small a (delta lo hi) c k := by
    intro c k
    apply maxOf_nonneg
    intro x hx
    obtain ⟨p, -, rfl⟩ := List.mem_map.1 hx
    refine div_nonneg (div_nonneg (abs_nonneg _) ?_) ?_
    · unfold normRadius
      split
      · exact zero_le_one
      · exact hrn c
    · refine add_nonneg (maxOf_nonneg ?_) heps.le
      intro y hy
      obtain ⟨e, -, rfl⟩ := List.mem_map.1 hy
      exact abs_nonneg _
  have hck : checks eps small a (delta lo hi) = true := by
    rw [checks_iff]
    refine ⟨fun i hi k hk => hc1 i hi k hk, hc2, hc3, ?_⟩
    intro k hk c hc
    unfold df
    have hn : 0 ≤ normRadius isZero (delta lo hi) (c - 1) := by
      unfold normRadius
      split
      · exact zero_le_one
      · exact hrn _
    split
    · exact le_refl _
    · split
      · refine mul_nonneg ?_ hn
        split
        · exact le_refl _
        · exact zero_le_one
      · exact mul_nonneg (hsens _ _) hn
  exact ⟨hge, hck⟩

/-- **C40**, method `GLOBAL`: if the convex hulls are right, and simulations have increasing times from 0 on, then the method `PW` also returns a tube for the same
simulations, with as many rectangles, and each of them is part of the rectangle of the method `GLOBAL`. So all that is proved of the method `PW` holds for `GLOBAL`. -/
theorem C40_global (hull : List (ℝ × ℝ) → Except String (List Nat)) (hhull : ∀ pts vs, hull pts = .ok vs → IsHull pts vs)
    (eps : ℝ) (heps : 0 < eps) (sim : List ℝ → List (List ℝ)) (lo hi : List ℝ) (hbox : List.Forall₂ (· ≤ ·) lo hi) (rnd tube : List (List ℝ))
    (hstart : ∀ p, (sim (center lo hi))[0]? = some p → p[0]? = some 0)
    (htime : ∀ (j k : Nat) (p q : List ℝ) (s t : ℝ), j < k → (sim (center lo hi))[j]? = some p → (sim (center lo hi))[k]? = some q → p[0]? = some s → q[0]? = some t → s < t)
    (h : bloatedTubeG hull eps sim lo hi rnd = .ok tube) :
    ∃ tube', bloatedTube eps sim lo hi rnd = .ok tube' ∧ tube'.length = tube.length ∧
      ∀ k, 2 * k + 1 < tube.length → ∃ l' u' l u, tube'[2 * k]? = some l' ∧ tube'[2 * k + 1]? = some u' ∧ tube[2 * k]? = some l ∧ tube[2 * k + 1]? = some u ∧
        PartOf l' u' l u := by
  have hl : lo.length = hi.length := hbox.length_eq
  unfold bloatedTubeG at h
  rw [if_pos hl] at h
  obtain ⟨a, ha, h⟩ := (bind_ok_iff _ _ _).1 h
  obtain ⟨segs, hs, rfl⟩ := (map_ok_iff _ _ _).1 h
  unfold getSegmentsG at hs
  split at hs
  · rename_i hc
    obtain ⟨hc1, hc2, hc3, hc4⟩ := hc
    obtain ⟨f, hf, hs⟩ := (bind_ok_iff _ _ _).1 hs
    split at hs
    · injection hs with hs
      subst hs
      unfold dfGlobal at hf
      obtain ⟨fs, hfs, rfl⟩ := (map_ok_iff _ _ _).1 hf
      obtain ⟨hge, hck⟩ := global_df hhull heps hbox hstart htime ha hc1 hc2 hc3 hc4 hfs
      refine ⟨interleave ((List.range (a.len - 1)).map (segment eps a (delta lo hi))), ?_, ?_, ?_⟩
      · unfold bloatedTube
        rw [if_pos hl]
        refine (bind_ok_iff _ _ _).2 ⟨a, ha, (map_ok_iff _ _ _).2 ⟨_, ?_, rfl⟩⟩
        unfold getSegments
        rw [if_pos hck]
      · rw [interleave_length, interleave_length]
        simp
      · intro k hk
        rw [interleave_length] at hk
        simp only [List.length_map, List.length_range] at hk
        have hka : k < a.len - 1 := by omega
        obtain ⟨e1, e2⟩ := interleave_get ((List.range (a.len - 1)).map (segment eps a (delta lo hi))) k
        obtain ⟨e3, e4⟩ := interleave_get ((List.range (a.len - 1)).map
          (segmentG a (fun k c => if c = 0 then 0 else (fs[c - 1]?.getD (fun _ => 0)) k))) k
        rw [List.getElem?_map, List.getElem?_range hka] at e1 e2 e3 e4
        refine ⟨_, _, _, _, e1, e2, e3, e4, ?_, ?_⟩
        · refine forall₂_range fun c hc => ?_
          have g1 := hge k (by omega) c hc
          have g2 := hge (k + 1) (by omega) c hc
          exact min_le_min (by linarith) (by linarith)
        · refine forall₂_range fun c hc => ?_
          have g1 := hge k (by omega) c hc
          have g2 := hge (k + 1) (by omega) c hc
          exact max_le_max (by linarith) (by linarith)
    · cases hs
  · cases hs

/-- **C40**, discrete time, method `GLOBAL`: if the convex hulls are right, and simulations have increasing times from 0 on, then the method `PW` also returns a tube for the same
simulations, with as many rectangles, and each of them is part of the rectangle of the method `GLOBAL`. So all that is proved of the method `PW` holds for `GLOBAL`. -/
theorem C40_disc_global (hull : List (ℝ × ℝ) → Except String (List Nat)) (hhull : ∀ pts vs, hull pts = .ok vs → IsHull pts vs)
    (eps : ℝ) (heps : 0 < eps) (sim : List ℝ → List (List ℝ)) (lo hi : List ℝ) (hbox : List.Forall₂ (· ≤ ·) lo hi) (rnd tube : List (List ℝ))
    (hstart : ∀ p, (sim (center lo hi))[0]? = some p → p[0]? = some 0)
    (htime : ∀ (j k : Nat) (p q : List ℝ) (s t : ℝ), j < k → (sim (center lo hi))[j]? = some p → (sim (center lo hi))[k]? = some q → p[0]? = some s → q[0]? = some t → s < t)
    (h : bloatedTubeDiscG hull eps sim lo hi rnd = .ok tube) :
    ∃ tube', bloatedTubeDisc eps sim lo hi rnd = .ok tube' ∧ tube'.length = tube.length ∧
      ∀ k, 2 * k + 1 < tube.length → ∃ l' u' l u, tube'[2 * k]? = some l' ∧ tube'[2 * k + 1]? = some u' ∧ tube[2 * k]? = some l ∧ tube[2 * k + 1]? = some u ∧
        PartOf l' u' l u := by
  have hl : lo.length = hi.length := hbox.length_eq
  unfold bloatedTubeDiscG at h
  rw [if_pos hl] at h
  obtain ⟨a, ha, h⟩ := (bind_ok_iff _ _ _).1 h
  obtain ⟨segs, hs, rfl⟩ := (map_ok_iff _ _ _).1 h
  unfold getSegmentsDiscG at hs
  split at hs
  · rename_i hc
    obtain ⟨hc1, hc2, hc3, hc4⟩ := hc
    obtain ⟨f, hf, hs⟩ := (bind_ok_iff _ _ _).1 hs
    split at hs
    · injection hs with hs
      subst hs
      unfold dfGlobal at hf
      obtain ⟨fs, hfs, rfl⟩ := (map_ok_iff _ _ _).1 hf
      obtain ⟨hge, hck⟩ := global_df hhull heps hbox hstart htime ha hc1 hc2 hc3 hc4 hfs
      refine ⟨interleave ((List.range a.len).map (segmentDisc eps a (delta lo hi))), ?_, ?_, ?_⟩
      · unfold bloatedTubeDisc
        rw [if_pos hl]
        refine (bind_ok_iff _ _ _).2 ⟨a, ha, (map_ok_iff _ _ _).2 ⟨_, ?_, rfl⟩⟩
        unfold getSegmentsDisc
        rw [if_pos hck]
      · rw [interleave_length, interleave_length]
        simp
      · intro k hk
        rw [interleave_length] at hk
        simp only [List.length_map, List.length_range] at hk
        have hka : k < a.len := by omega
        obtain ⟨e1, e2⟩ := interleave_get ((List.range a.len).map (segmentDisc eps a (delta lo hi))) k
        obtain ⟨e3, e4⟩ := interleave_get ((List.range a.len).map
          (segmentDiscG a (fun k c => if c = 0 then 0 else (fs[c - 1]?.getD (fun _ => 0)) k))) k
        rw [List.getElem?_map, List.getElem?_range hka] at e1 e2 e3 e4
        refine ⟨_, _, _, _, e1, e2, e3, e4, ?_, ?_⟩
        · refine forall₂_range fun c hc => ?_
          have g1 := hge k (by omega) c hc
          linarith
        · refine forall₂_range fun c hc => ?_
          have g1 := hge k (by omega) c hc
          linarith
    · cases hs
  · cases hs

theorem within_part {l' u' l u x : List ℝ} (hp : PartOf l' u' l u) (h : Within l' u' x) : Within l u x := by
  obtain ⟨h1, h2⟩ := h
  obtain ⟨h3, h4⟩ := hp
  rw [List.forall₂_iff_get] at h1 h2 h3 h4
  constructor <;> rw [List.forall₂_iff_get]
  · exact ⟨h3.1.trans h1.1, fun i hi1 hi2 => (h3.2 i hi1 (by omega)).trans (h1.2 i (by omega) hi2)⟩
  · exact ⟨h2.1.trans h4.1, fun i hi1 hi2 => (h2.2 i hi1 (by omega)).trans (h4.2 i (by omega) hi2)⟩

/-- **C40**, method `GLOBAL`: the first rectangle contains the initial set. -/
theorem C40_global_initial (hull : List (ℝ × ℝ) → Except String (List Nat)) (hhull : ∀ pts vs, hull pts = .ok vs → IsHull pts vs)
    (eps : ℝ) (heps : 0 < eps) (sim : List ℝ → List (List ℝ)) (lo hi : List ℝ) (hbox : List.Forall₂ (· ≤ ·) lo hi) (rnd tube : List (List ℝ))
    (hsim : (sim (center lo hi))[0]? = some (0 :: center lo hi))
    (htime : ∀ (j k : Nat) (p q : List ℝ) (s t : ℝ), j < k → (sim (center lo hi))[j]? = some p → (sim (center lo hi))[k]? = some q → p[0]? = some s → q[0]? = some t → s < t)
    (h : bloatedTubeG hull eps sim lo hi rnd = .ok tube) (hne : 1 < tube.length) (q : List ℝ) (hq : Within lo hi q) :
    ∃ l u, tube[0]? = some l ∧ tube[1]? = some u ∧ Within l u (0 :: q) := by
  obtain ⟨tube', t1, t2, t3⟩ := C40_global hull hhull eps heps sim lo hi hbox rnd tube (fun p hp => by rw [hsim] at hp; injection hp with hp; subst hp; rfl) htime h
  obtain ⟨l', u', l, u, g1, g2, g3, g4, g5⟩ := t3 0 hne
  obtain ⟨l1, u1, e1, e2, e3⟩ := C40_initial eps sim lo hi rnd tube' t1 (by omega) 0 hsim q hq
  rw [e1] at g1
  rw [e2] at g2
  injection g1 with g1
  injection g2 with g2
  subst g1 g2
  exact ⟨l, u, g3, g4, within_part g5 e3⟩

/-- **C40**, method `GLOBAL`, for the training traces (partial as `C40_training_partial`): every rectangle contains the two samples between which it lies. -/
theorem C40_global_training_partial (hull : List (ℝ × ℝ) → Except String (List Nat)) (hhull : ∀ pts vs, hull pts = .ok vs → IsHull pts vs)
    (eps : ℝ) (heps : 0 < eps) (heps1 : eps ≤ 1) (sim : List ℝ → List (List ℝ)) (lo hi : List ℝ) (hbox : List.Forall₂ (· ≤ ·) lo hi) (rnd tube : List (List ℝ))
    (hsim : (sim (center lo hi))[0]? = some (0 :: center lo hi))
    (htime : ∀ (j k : Nat) (p q : List ℝ) (s t : ℝ), j < k → (sim (center lo hi))[j]? = some p → (sim (center lo hi))[k]? = some q → p[0]? = some s → q[0]? = some t → s < t)
    (h : bloatedTubeG hull eps sim lo hi rnd = .ok tube) (t1 : ℝ) (x : List ℝ) (hx : x ∈ rnd)
    (hsimx : (sim (randomPoint lo hi x))[0]? = some (t1 :: randomPoint lo hi x))
    (hdist : ∀ (d : Nat) (m q r : ℝ), (center lo hi)[d]? = some m → (randomPoint lo hi x)[d]? = some q → (delta lo hi)[d]? = some r → |m - q| ≤ (1 - eps) * r)
    (k : Nat) (hk : 2 * k + 1 < tube.length) (j : Nat) (hj : j = k ∨ j = k + 1) :
    ∃ l u w, tube[2 * k]? = some l ∧ tube[2 * k + 1]? = some u ∧ (sim (randomPoint lo hi x))[j]? = some w ∧ Within l u w := by
  obtain ⟨tube', r1, r2, r3⟩ := C40_global hull hhull eps heps sim lo hi hbox rnd tube (fun p hp => by rw [hsim] at hp; injection hp with hp; subst hp; rfl) htime h
  obtain ⟨l', u', l, u, g1, g2, g3, g4, g5⟩ := r3 k hk
  obtain ⟨l1, u1, w, e1, e2, e3, e4⟩ := C40_training_partial eps heps heps1 sim lo hi rnd tube' r1 0 t1 hsim x hx hsimx hdist k (by omega) j hj
  rw [e1] at g1
  rw [e2] at g2
  injection g1 with g1
  injection g2 with g2
  subst g1 g2
  exact ⟨l, u, w, g3, g4, e3, within_part g5 e4⟩

/-- **C40**, discrete time, method `GLOBAL` (partial as `C40_disc_partial`): the rectangle of each sample time contains the samples of the center trace and of the
training trace. -/
theorem C40_disc_global_partial (hull : List (ℝ × ℝ) → Except String (List Nat)) (hhull : ∀ pts vs, hull pts = .ok vs → IsHull pts vs)
    (eps : ℝ) (heps : 0 < eps) (heps1 : eps ≤ 1) (sim : List ℝ → List (List ℝ)) (lo hi : List ℝ) (hbox : List.Forall₂ (· ≤ ·) lo hi) (rnd tube : List (List ℝ))
    (hrad : ∀ r ∈ delta lo hi, r = 0 ∨ 1 / 10 ^ 10 ≤ r)
    (hsim : (sim (center lo hi))[0]? = some (0 :: center lo hi))
    (htime : ∀ (j k : Nat) (p q : List ℝ) (s t : ℝ), j < k → (sim (center lo hi))[j]? = some p → (sim (center lo hi))[k]? = some q → p[0]? = some s → q[0]? = some t → s < t)
    (h : bloatedTubeDiscG hull eps sim lo hi rnd = .ok tube) (t1 : ℝ) (x : List ℝ) (hx : x ∈ rnd)
    (hsimx : (sim (randomPoint lo hi x))[0]? = some (t1 :: randomPoint lo hi x))
    (hdist : ∀ (d : Nat) (m q r : ℝ), (center lo hi)[d]? = some m → (randomPoint lo hi x)[d]? = some q → (delta lo hi)[d]? = some r → |m - q| ≤ (1 - eps) * r)
    (k : Nat) (hk : 2 * k + 1 < tube.length) :
    ∃ l u m w, tube[2 * k]? = some l ∧ tube[2 * k + 1]? = some u ∧ (sim (center lo hi))[k]? = some m ∧ (sim (randomPoint lo hi x))[k]? = some w ∧
      Within l u m ∧ Within l u w := by
  obtain ⟨tube', r1, r2, r3⟩ := C40_disc_global hull hhull eps heps sim lo hi hbox rnd tube (fun p hp => by rw [hsim] at hp; injection hp with hp; subst hp; rfl) htime h
  obtain ⟨l', u', l, u, g1, g2, g3, g4, g5⟩ := r3 k hk
  obtain ⟨l1, u1, m, w, e1, e2, e3, e4, e5, e6⟩ := C40_disc_partial eps heps heps1 sim lo hi rnd tube' r1 hrad 0 t1 hsim x hx hsimx hdist k (by omega)
  rw [e1] at g1
  rw [e2] at g2
  injection g1 with g1
  injection g2 with g2
  subst g1 g2
  exact ⟨l, u, m, w, g3, g4, e3, e4, within_part g5 e5, within_part g5 e6⟩

namespace DryGEx

noncomputable def half : ℝ := 1 / 2

/-- States double in the first step. -/
noncomputable def sim (x : List ℝ) : List (List ℝ) := [0 :: x, 1 :: x.map (2 * ·), 2 :: x.map (2 * ·)]

/-- The array of the two simulations from 1 and 3/2. -/
noncomputable def arr : Arr ℝ := ⟨2, 3, 2, fun i k d => (((([[[0, 1], [1, 2], [2, 2]], [[0, 3 / 2], [1, 3], [2, 3]]] : List (List (List ℝ)))[i]?.getD [])[k]?.getD [])[d]?).getD 0⟩

/-- A hull routine that is right whenever it returns. -/
noncomputable def hull (pts : List (ℝ × ℝ)) : Except String (List Nat) :=
  open Classical in if IsHull pts [1, 2, 3, 4] then .ok [1, 2, 3, 4] else .error "QhullError"

theorem hull_right (pts : List (ℝ × ℝ)) (vs : List Nat) (h : hull pts = .ok vs) : IsHull pts vs := by
  unfold hull at h
  split at h
  · injection h with h
    subst h
    assumption
  · cases h

theorem arr_eq : toArr (traces sim [0] [2] [[3 / 4]]) = .ok arr := by
  have e : traces sim [0] [2] [[3 / 4]] = [[[0, 1], [1, 2], [2, 2]], [[0, 3 / 2], [1, 3], [2, 3]]] := by
    simp [traces, trimTraces, sim, center, randomPoint]
    norm_num
  rw [e]
  simp [toArr, arr]

theorem delta_eq : delta [0] [2] = [(1 : ℝ)] := by norm_num [delta]

/-- 1 is not replaced. -/
def Keeps (small : ℝ → Bool) : Prop := small 1 = false

theorem keeps_zero : Keeps isZero := by simp [Keeps, isZero]
theorem keeps_tiny : Keeps isTiny := by
  simp only [Keeps, isTiny, decide_eq_false_iff_not]
  norm_num

variable {small : ℝ → Bool}

theorem sens_eq (hS : Keeps small) (k : Nat) (hk : k = 1 ∨ k = 2) : sens half small arr [1] 0 k = 1 := by
  have hS' : small 1 = false := hS
  rcases hk with rfl | rfl <;> simp [half, sens, pairs, List.range_succ, initDist, maxOf, normRadius, hS', arr] <;> norm_num

theorem point_eq (hS : Keeps small) (k : Nat) (hk : k ≤ 2) : point small half arr [1] 0 k = ((k : ℝ), 0) := by
  have h1 : max (1 : ℝ) (1 / 10 ^ 6) = 1 := max_eq_left (by norm_num)
  interval_cases k
  · simp only [point, if_true]
    rw [if_neg (by simp), h1]
    simp
  · simp only [point, sens_eq hS 1 (.inl rfl), if_neg one_ne_zero]
    rw [h1]
    simp [arr]
  · simp only [point, sens_eq hS 2 (.inr rfl), if_neg two_ne_zero]
    rw [h1]
    simp [arr]

theorem newMin_eq (hS : Keeps small) : newMin small half arr [1] 0 = -10 := by
  simp [newMin, List.range_succ, show arr.len = 3 from rfl, point_eq hS, minOf]

theorem points_eq (hS : Keeps small) : dimPoints small half arr [1] 0 = [(1, 0), (2, 0), (0, 0), (0, -10), (2, -10)] := by
  simp [dimPoints, List.range_succ, show arr.len = 3 from rfl, point_eq hS, newMin_eq hS]

theorem isHull : IsHull [(1, 0), (2, 0), (0, 0), (0, -10), (2, -10)] [1, 2, 3, 4] where
  index := by simp
  spans := by
    have hv : ∀ p : ℝ × ℝ, p = (2, 0) ∨ p = (0, 0) ∨ p = (0, -10) ∨ p = (2, -10) →
        p ∈ {q | ∃ i ∈ [1, 2, 3, 4], ([(1, 0), (2, 0), (0, 0), (0, -10), (2, -10)] : List (ℝ × ℝ))[i]? = some q} := by
      rintro p (rfl | rfl | rfl | rfl)
      · exact ⟨1, by simp, rfl⟩
      · exact ⟨2, by simp, rfl⟩
      · exact ⟨3, by simp, rfl⟩
      · exact ⟨4, by simp, rfl⟩
    intro p hp
    rcases List.mem_cons.1 hp with rfl | hp
    · have := (convex_convexHull ℝ _) (subset_convexHull ℝ _ (hv (2, 0) (by simp))) (subset_convexHull ℝ _ (hv (0, 0) (by simp)))
        (show (0 : ℝ) ≤ 1 / 2 by norm_num) (show (0 : ℝ) ≤ 1 / 2 by norm_num) (by norm_num)
      convert this using 1
      ext <;> simp
    · refine subset_convexHull ℝ _ (hv p ?_)
      simpa using hp
  left := by
    intro a b p q hf hp hq
    have hab : (a = 1 ∧ b = 2) ∨ (a = 2 ∧ b = 3) ∨ (a = 3 ∧ b = 4) ∨ (a = 4 ∧ b = 1) := by
      rcases hf with ⟨i, h1, h2⟩ | ⟨h1, h2⟩
      · match i, h1, h2 with
        | 0, h1, h2 => simp at h1 h2; omega
        | 1, h1, h2 => simp at h1 h2; omega
        | 2, h1, h2 => simp at h1 h2; omega
        | i + 3, h1, h2 => simp at h2
      · simp at h1 h2
        omega
    rcases hab with ⟨rfl, rfl⟩ | ⟨rfl, rfl⟩ | ⟨rfl, rfl⟩ | ⟨rfl, rfl⟩ <;> simp at hp hq <;> subst hp hq <;> refine ⟨by simp, ?_⟩ <;> intro x hx <;>
      simp only [List.mem_cons, List.not_mem_nil, or_false] at hx <;> rcases hx with rfl | rfl | rfl | rfl | rfl <;> norm_num [turn]
  flat := ⟨(2, 0), (0, 0), (0, -10), by simp, by simp, by simp, by norm_num [turn]⟩

theorem dimDf_eq (hS : Keeps small) : ∃ f, dimDf hull small half arr [1] 0 = .ok f ∧ f 0 = 1 ∧ f 1 = 1 ∧ f 2 = 1 := by
  have hh : hull (dimPoints small half arr [1] 0) = .ok [1, 2, 3, 4] := by
    rw [points_eq hS]
    exact if_pos isHull
  have hs : [(1, 2), (2, 3), (3, 4), (4, 1)].mapM (sepOf (dimPoints small half arr [1] 0) (newMin small half arr [1] 0)) =
      .ok [some ⟨0, 2, 0, 0, 0, 2⟩, none, none, none] := by
    rw [points_eq hS, newMin_eq hS, mapM_ok_iff]
    refine .cons ?_ (.cons ?_ (.cons ?_ (.cons ?_ .nil))) <;> simp [sepOf]
  have hfold : ([⟨0, 2, 0, 0, 0, 2⟩] : List Sep).foldlM (sepStep arr [1] 0) (0, 0, fun k => if k = 0 then 1 else 0) =
      .ok (segAt arr [1] 0 0 ⟨0, 2, 0, 0, 0, 2⟩ 2, 2, fun k => if k ≤ 2 then segAt arr [1] 0 0 ⟨0, 2, 0, 0, 0, 2⟩ k else if k = 0 then 1 else 0) := by
    refine (foldlM_cons_ok _ _ _ _ _).2 ⟨_, ?_, rfl⟩
    simp [sepStep, arr]
  refine ⟨fun k => if k ≤ 2 then segAt arr [1] 0 0 ⟨0, 2, 0, 0, 0, 2⟩ k else if k = 0 then 1 else 0, ?_, ?_, ?_, ?_⟩
  · refine (bind_ok_iff _ _ _).2 ⟨_, hh, (bind_ok_iff _ _ _).2 ⟨[(1, 2), (2, 3), (3, 4), (4, 1)], rfl, (bind_ok_iff _ _ _).2 ⟨_, hs, (map_ok_iff _ _ _).2 ⟨_, (show _ = _ from ?_).trans hfold, rfl⟩⟩⟩⟩
    simp
  · simp [segAt, normRadius, isZero]
  · simp [segAt, normRadius, isZero]
  · simp [segAt, normRadius, isZero]

end DryGEx

open DryGEx in
/-- The hypotheses of the theorems hold: initial set `[0, 2]`, one random point, states double in the first step. -/
example : (∀ pts vs, hull pts = .ok vs → IsHull pts vs) ∧ bloatedTubeG hull half sim [0] [2] [[3 / 4]] = .ok [[0, 0], [1, 3], [1, 1], [2, 3]] ∧
    (sim (center [0] [2]))[0]? = some (0 :: center [0] [2]) ∧
    (∀ (j k : Nat) (p q : List ℝ) (s t : ℝ), j < k → (sim (center [0] [2]))[j]? = some p → (sim (center [0] [2]))[k]? = some q → p[0]? = some s → q[0]? = some t → s < t) ∧
    (∀ (d : Nat) (m q r : ℝ), (center [0] [2])[d]? = some m → (randomPoint [0] [2] [3 / 4])[d]? = some q → (delta [0] [2])[d]? = some r → |m - q| ≤ (1 - half) * r) := by
  refine ⟨hull_right, ?_, rfl, ?_, ?_⟩
  · obtain ⟨f, hf, f0, f1, f2⟩ := dimDf_eq keeps_zero
    unfold bloatedTubeG
    rw [if_pos (show ([0] : List ℝ).length = ([2] : List ℝ).length from rfl)]
    refine (bind_ok_iff _ _ _).2 ⟨arr, arr_eq, (map_ok_iff _ _ _).2 ⟨[([0, 0], [1, 3]), ([1, 1], [2, 3])], ?_, rfl⟩⟩
    rw [delta_eq]
    unfold getSegmentsG
    rw [if_pos ⟨by
      intro i hi k hk
      simp only [arr] at hi hk
      interval_cases i <;> interval_cases k <;> simp [arr], rfl, le_refl _, by simp [arr]⟩]
    refine (bind_ok_iff _ _ _).2 ⟨fun k c => if c = 0 then 0 else ([f][c - 1]?.getD (fun _ => 0)) k, ?_, ?_⟩
    · refine (map_ok_iff _ _ _).2 ⟨[f], ?_, rfl⟩
      rw [mapM_ok_iff]
      exact .cons hf .nil
    · rw [if_pos]
      · have e : arr.len - 1 = 2 := rfl
        rw [e]
        simp [List.range_succ, segmentG, arr, f0, f1, f2]
        norm_num
      · intro k hk c hc
        simp only [arr] at hk hc
        interval_cases c
        · simp
        · interval_cases k <;> simp [f0, f1, f2]
  · intro j k p q s t hjk hp hq hs ht
    match j, k, hjk, hp, hq with
    | 0, 1, _, hp, hq => simp [sim] at hp hq; subst hp hq; simp at hs ht; subst hs ht; norm_num
    | 0, 2, _, hp, hq => simp [sim] at hp hq; subst hp hq; simp at hs ht; subst hs ht; norm_num
    | 1, 2, _, hp, hq => simp [sim] at hp hq; subst hp hq; simp at hs ht; subst hs ht; norm_num
    | j + 1, 1, h, _, _ => omega
    | j + 2, 2, h, _, _ => omega
    | j, k + 3, _, hp, hq => simp [sim] at hq
  · intro d m q r hm hq hr
    match d with
    | 0 =>
      simp [center, randomPoint, delta] at hm hq hr
      subst hm hq hr
      norm_num [abs_le, half]
    | d + 1 => simp [center] at hm

open DryGEx in
/-- The same in discrete time. -/
example : bloatedTubeDiscG hull half sim [0] [2] [[3 / 4]] = .ok [[0, 0], [0, 2], [1, 1], [1, 3], [2, 1], [2, 3]] ∧
    (∀ r ∈ delta [0] [(2 : ℝ)], r = 0 ∨ 1 / 10 ^ 10 ≤ r) := by
  refine ⟨?_, ?_⟩
  · obtain ⟨f, hf, f0, f1, f2⟩ := dimDf_eq keeps_tiny
    unfold bloatedTubeDiscG
    rw [if_pos (show ([0] : List ℝ).length = ([2] : List ℝ).length from rfl)]
    refine (bind_ok_iff _ _ _).2 ⟨arr, arr_eq, (map_ok_iff _ _ _).2 ⟨[([0, 0], [0, 2]), ([1, 1], [1, 3]), ([2, 1], [2, 3])], ?_, rfl⟩⟩
    rw [delta_eq]
    unfold getSegmentsDiscG
    rw [if_pos ⟨by
      intro i hi k hk
      simp only [arr] at hi hk
      interval_cases i <;> interval_cases k <;> simp [arr], rfl, le_refl _, by simp [arr]⟩]
    refine (bind_ok_iff _ _ _).2 ⟨fun k c => if c = 0 then 0 else ([f][c - 1]?.getD (fun _ => 0)) k, ?_, ?_⟩
    · refine (map_ok_iff _ _ _).2 ⟨[f], ?_, rfl⟩
      rw [mapM_ok_iff]
      exact .cons hf .nil
    · rw [if_pos]
      · have e : arr.len = 3 := rfl
        rw [e]
        simp [List.range_succ, segmentDiscG, arr, f0, f1, f2]
        norm_num
      · intro k hk c hc
        simp only [arr] at hk hc
        interval_cases c
        · simp
        · interval_cases k <;> simp [f0, f1, f2]
  · rw [delta_eq]
    intro r hr
    rw [List.mem_singleton] at hr
    subst hr
    right
    norm_num

end Verif.Props
