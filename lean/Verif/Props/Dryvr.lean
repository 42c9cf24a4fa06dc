import Verif.Proofs.Dryvr
import Mathlib.Algebra.Order.Ring.Rat
import Mathlib.Tactic.NormNum

/-!
C40: tubes built from simulations.
-/

set_option autoImplicit false
set_option linter.unusedSectionVars false

namespace Verif.Props
open Verif.Dry

variable {K : Type} [Field K] [LinearOrder K] [IsStrictOrderedRing K]

theorem tube_ok {eps : K} {sim : List K → List (List K)} {lo hi : List K} {rnd tube : List (List K)} (h : bloatedTube eps sim lo hi rnd = .ok tube) :
    ∃ a, Run isZero eps sim lo hi rnd a ∧ tube = interleave ((List.range (a.len - 1)).map (segment eps a (delta lo hi))) := by
  unfold bloatedTube at h
  split at h
  · rename_i hl
    obtain ⟨a, ha, h⟩ := (bind_ok_iff _ _ _).1 h
    obtain ⟨segs, hs, rfl⟩ := (map_ok_iff _ _ _).1 h
    unfold getSegments at hs
    split at hs
    · rename_i hc
      injection hs with hs
      exact ⟨a, run_of hl ha hc, by rw [hs]⟩
    · cases hs
  · cases h

theorem tubeDisc_ok {eps : K} {sim : List K → List (List K)} {lo hi : List K} {rnd tube : List (List K)} (h : bloatedTubeDisc eps sim lo hi rnd = .ok tube) :
    ∃ a, Run isTiny eps sim lo hi rnd a ∧ tube = interleave ((List.range a.len).map (segmentDisc eps a (delta lo hi))) := by
  unfold bloatedTubeDisc at h
  split at h
  · rename_i hl
    obtain ⟨a, ha, h⟩ := (bind_ok_iff _ _ _).1 h
    obtain ⟨segs, hs, rfl⟩ := (map_ok_iff _ _ _).1 h
    unfold getSegmentsDisc at hs
    split at hs
    · rename_i hc
      injection hs with hs
      exact ⟨a, run_of hl ha hc, by rw [hs]⟩
    · cases hs
  · cases h

theorem interleave_length (segs : List (List K × List K)) : (interleave segs).length = 2 * segs.length := by
  induction segs with
  | nil => rfl
  | cons s segs ih =>
    have e : interleave (s :: segs) = s.1 :: s.2 :: interleave segs := rfl
    rw [e]
    simp only [List.length_cons, ih]
    omega

theorem tube_get {eps : K} {a : Arr K} {r : List K} {k : Nat} (hk : 2 * k + 1 < (interleave ((List.range (a.len - 1)).map (segment eps a r))).length) :
    k + 1 < a.len ∧ (interleave ((List.range (a.len - 1)).map (segment eps a r)))[2 * k]? = some (segment eps a r k).1 ∧
      (interleave ((List.range (a.len - 1)).map (segment eps a r)))[2 * k + 1]? = some (segment eps a r k).2 := by
  rw [interleave_length, List.length_map, List.length_range] at hk
  have h := interleave_get ((List.range (a.len - 1)).map (segment eps a r)) k
  have hk' : k < a.len - 1 := by omega
  simp only [List.getElem?_map, List.getElem?_range hk', Option.map_some] at h
  exact ⟨by omega, h⟩

theorem tubeDisc_get {eps : K} {a : Arr K} {r : List K} {k : Nat} (hk : 2 * k + 1 < (interleave ((List.range a.len).map (segmentDisc eps a r))).length) :
    k < a.len ∧ (interleave ((List.range a.len).map (segmentDisc eps a r)))[2 * k]? = some (segmentDisc eps a r k).1 ∧
      (interleave ((List.range a.len).map (segmentDisc eps a r)))[2 * k + 1]? = some (segmentDisc eps a r k).2 := by
  rw [interleave_length, List.length_map, List.length_range] at hk
  have h := interleave_get ((List.range a.len).map (segmentDisc eps a r)) k
  have hk' : k < a.len := by omega
  simp only [List.getElem?_map, List.getElem?_range hk', Option.map_some] at h
  exact ⟨hk', h⟩

/-- **C40**, center trace. Every rectangle of the tube contains the two samples of the simulation from the center of the
initial set between which it lies. -/
theorem C40_center (eps : K) (sim : List K → List (List K)) (lo hi : List K) (rnd tube : List (List K))
    (h : bloatedTube eps sim lo hi rnd = .ok tube) (k : Nat) (hk : 2 * k + 1 < tube.length) :
    ∃ l u m m', tube[2 * k]? = some l ∧ tube[2 * k + 1]? = some u ∧ (sim (center lo hi))[k]? = some m ∧ (sim (center lo hi))[k + 1]? = some m' ∧
      Within l u m ∧ Within l u m' := by
  obtain ⟨a, hr, rfl⟩ := tube_ok h
  obtain ⟨hk, h1, h2⟩ := tube_get hk
  obtain ⟨m, hm, hml, hmv⟩ := hr.rows 0 k _ rfl (by omega)
  obtain ⟨m', hm', hml', hmv'⟩ := hr.rows 0 (k + 1) _ rfl hk
  refine ⟨_, _, m, m', h1, h2, hm, hm', within_range hml ?_, within_range hml' ?_⟩
  · intro c x hx
    have hc : c < a.dims := hml ▸ (List.getElem?_eq_some_iff.1 hx).1
    have hp := hr.checked.pos k (by omega) c hc
    rw [hmv c hc] at hx
    injection hx with hx
    subst hx
    exact ⟨le_trans (min_le_right _ _) (by linarith), le_trans (by linarith) (le_max_right _ _)⟩
  · intro c x hx
    have hc : c < a.dims := hml' ▸ (List.getElem?_eq_some_iff.1 hx).1
    have hp := hr.checked.pos (k + 1) hk c hc
    rw [hmv' c hc] at hx
    injection hx with hx
    subst hx
    exact ⟨le_trans (min_le_left _ _) (by linarith), le_trans (by linarith) (le_max_left _ _)⟩

/-- **C40**, length: with simulations of `n` samples there are `n - 1` rectangles. -/
theorem C40_length (eps : K) (sim : List K → List (List K)) (lo hi : List K) (rnd tube : List (List K))
    (h : bloatedTube eps sim lo hi rnd = .ok tube) (n : Nat) (hn : ∀ x, (sim x).length = n) : tube.length = 2 * (n - 1) := by
  unfold bloatedTube at h
  split at h
  · obtain ⟨a, ha, h⟩ := (bind_ok_iff _ _ _).1 h
    obtain ⟨segs, hs, rfl⟩ := (map_ok_iff _ _ _).1 h
    unfold getSegments at hs
    split at hs
    · injection hs with hs
      subst hs
      rw [interleave_length, List.length_map, List.length_range]
      obtain ⟨_, _, h3, _⟩ := toArr_spec ha
      have h0 : sim (center lo hi) ∈ traces sim lo hi rnd := by
        have hfold : ∀ (l : List (List K)), (l.map (fun x => sim (randomPoint lo hi x))).foldl (fun m y => min m y.length) n = n := by
          intro l
          induction l with
          | nil => rfl
          | cons y l ih => simp only [List.map_cons, List.foldl_cons, hn, min_self, ih]
        simp only [traces, trimTraces, List.map_cons, hn, hfold]
        rw [List.take_of_length_le (by rw [hn])]
        exact List.mem_cons_self
      rw [← (h3 _ h0).1, hn]
    · cases hs
  · cases h

theorem getElem?_center {lo hi : List K} {d : Nat} {l u : K} (hl : lo[d]? = some l) (hu : hi[d]? = some u) :
    (center lo hi)[d]? = some ((u + l) / 2) ∧ (delta lo hi)[d]? = some ((u - l) / 2) := by
  simp [center, delta, List.getElem?_zipWith, hl, hu]

/-- **C40**, initial set. The first rectangle contains every state of the initial set, if simulations start in the given state. -/
theorem C40_initial (eps : K) (sim : List K → List (List K)) (lo hi : List K) (rnd tube : List (List K))
    (h : bloatedTube eps sim lo hi rnd = .ok tube) (hk : 0 < tube.length) (t0 : K) (hsim : (sim (center lo hi))[0]? = some (t0 :: center lo hi))
    (x : List K) (hx : Within lo hi x) :
    ∃ l u, tube[0]? = some l ∧ tube[1]? = some u ∧ Within l u (t0 :: x) := by
  obtain ⟨a, hr, rfl⟩ := tube_ok h
  have hk1 : 2 * 0 + 1 < (interleave ((List.range (a.len - 1)).map (segment eps a (delta lo hi)))).length := by
    rw [interleave_length] at hk ⊢
    omega
  obtain ⟨hk, h1, h2⟩ := tube_get hk1
  obtain ⟨m, hm, hml, hmv⟩ := hr.rows 0 0 _ rfl (by omega)
  have hlx : lo.length = x.length := hx.1.length_eq
  have hlu : x.length = hi.length := hx.2.length_eq
  rw [hsim] at hm
  injection hm with hm
  subst hm
  have hlc : (center lo hi).length = x.length := by simp [center, List.length_zipWith]; omega
  have hdims : a.dims = x.length + 1 := by rw [← hml, List.length_cons, hlc]
  refine ⟨_, _, h1, h2, within_range (by rw [List.length_cons, hdims]) ?_⟩
  intro c y hy
  cases c with
  | zero =>
    have h0 := hmv 0 (by omega)
    simp only [List.getElem?_cons_zero, Option.some.injEq] at h0 hy
    subst hy
    have hp := hr.checked.pos 0 (by omega) 0 (by omega)
    rw [h0]
    exact ⟨le_trans (min_le_right _ _) (by linarith), le_trans (by linarith) (le_max_right _ _)⟩
  | succ d =>
    rw [List.getElem?_cons_succ] at hy
    have hd : d < x.length := (List.getElem?_eq_some_iff.1 hy).1
    have hlo : lo[d]? = some (lo[d]) := List.getElem?_eq_getElem (by omega)
    have hhi : hi[d]? = some (hi[d]) := List.getElem?_eq_getElem (by omega)
    obtain ⟨hc, hdl⟩ := getElem?_center hlo hhi
    have hat := hmv (d + 1) (by omega)
    rw [List.getElem?_cons_succ, hc, Option.some.injEq] at hat
    have hb1 := List.forall₂_iff_get.1 hx.1
    have hb2 := List.forall₂_iff_get.1 hx.2
    have hxe : y = x[d] := by
      rw [List.getElem?_eq_getElem hd] at hy
      injection hy with hy
      exact hy.symm
    have hl1 : lo[d] ≤ y := hxe ▸ hb1.2 d (by omega) hd
    have hl2 : y ≤ hi[d] := hxe ▸ hb2.2 d hd (by omega)
    have e : df eps isZero a (delta lo hi) 0 (d + 1) = (hi[d] - lo[d]) / 2 := by rw [df_zero, hdl, Option.getD_some]
    refine ⟨le_trans (min_le_right _ _) ?_, le_trans ?_ (le_max_right _ _)⟩
    · rw [e, ← hat]; linarith
    · rw [e, ← hat]; linarith

/-- Training traces, for both variants: the distance to the center trace. -/
theorem train_dist {small : K → Bool} {eps : K} (heps : 0 < eps) {sim : List K → List (List K)} {lo hi : List K} {rnd : List (List K)} {a : Arr K}
    (hr : Run small eps sim lo hi rnd a) (hsm : ∀ d < (delta lo hi).length, normRadius small (delta lo hi) d = normRadius isZero (delta lo hi) d)
    (t0 t1 : K) (hsim : (sim (center lo hi))[0]? = some (t0 :: center lo hi)) (x : List K) (hx : x ∈ rnd)
    (hsimx : (sim (randomPoint lo hi x))[0]? = some (t1 :: randomPoint lo hi x)) (s : K) (hs : 0 ≤ s)
    (hdist : ∀ (d : Nat) (m q r : K), (center lo hi)[d]? = some m → (randomPoint lo hi x)[d]? = some q → (delta lo hi)[d]? = some r → |m - q| ≤ s * r)
    (k : Nat) (hk : k < a.len) :
    ∃ m w, (sim (center lo hi))[k]? = some m ∧ (sim (randomPoint lo hi x))[k]? = some w ∧ m.length = a.dims ∧ w.length = a.dims ∧
      ∀ (c : Nat) (p q : K), m[c]? = some p → w[c]? = some q → p = a.at_ 0 k c ∧ |p - q| ≤ (s + eps) * df eps small a (delta lo hi) k c := by
  obtain ⟨i, hi0, hi1⟩ := List.mem_iff_getElem.1 hx
  have hrow : (sim (center lo hi) :: rnd.map (fun x => sim (randomPoint lo hi x)))[i + 1]? = some (sim (randomPoint lo hi x)) := by
    rw [List.getElem?_cons_succ, List.getElem?_map, List.getElem?_eq_getElem hi0, hi1]
    rfl
  obtain ⟨m, hm, hml, hmv⟩ := hr.rows 0 k _ rfl hk
  obtain ⟨w, hw, hwl, hwv⟩ := hr.rows (i + 1) k _ hrow hk
  obtain ⟨m0, hm0, hml0, hmv0⟩ := hr.rows 0 0 _ rfl hr.pos
  obtain ⟨w0, hw0, hwl0, hwv0⟩ := hr.rows (i + 1) 0 _ hrow hr.pos
  rw [hsim] at hm0
  rw [hsimx] at hw0
  injection hm0 with hm0
  injection hw0 with hw0
  subst hm0
  subst hw0
  refine ⟨m, w, hm, hw, hml, hwl, ?_⟩
  intro c p q hp hq
  have hc : c < a.dims := hml ▸ (List.getElem?_eq_some_iff.1 hp).1
  rw [hmv c hc] at hp
  rw [hwv c hc] at hq
  injection hp with hp
  injection hq with hq
  subst hp
  subst hq
  refine ⟨rfl, dist_le heps hr.checked hsm hs (by rw [hr.n]; omega) (by omega) ?_ hk hc⟩
  intro d hd
  have hds : d + 1 < a.dims := by have := hr.checked.size; omega
  have e1 := hmv0 (d + 1) hds
  have e2 := hwv0 (d + 1) hds
  rw [List.getElem?_cons_succ] at e1 e2
  have e3 : (delta lo hi)[d]? = some ((delta lo hi)[d]?.getD 0) := by
    rw [List.getElem?_eq_getElem hd]; rfl
  exact hdist d _ _ _ e1 e2 e3

/-- **C40**, training traces. If the initial point of a simulation has distance at most `s` times the radius from the center
(in every dimension), its samples are in the rectangles enlarged by the factor `s + eps`. -/
theorem C40_training (eps : K) (heps : 0 < eps) (sim : List K → List (List K)) (lo hi : List K) (rnd tube : List (List K))
    (h : bloatedTube eps sim lo hi rnd = .ok tube)
    (t0 t1 : K) (hsim : (sim (center lo hi))[0]? = some (t0 :: center lo hi)) (x : List K) (hx : x ∈ rnd)
    (hsimx : (sim (randomPoint lo hi x))[0]? = some (t1 :: randomPoint lo hi x)) (s : K) (hs : 0 ≤ s)
    (hdist : ∀ (d : Nat) (m q r : K), (center lo hi)[d]? = some m → (randomPoint lo hi x)[d]? = some q → (delta lo hi)[d]? = some r → |m - q| ≤ s * r)
    (k : Nat) (hk : 2 * k + 1 < tube.length) (j : Nat) (hj : j = k ∨ j = k + 1) :
    ∃ l u m w, tube[2 * k]? = some l ∧ tube[2 * k + 1]? = some u ∧ (sim (center lo hi))[j]? = some m ∧ (sim (randomPoint lo hi x))[j]? = some w ∧
      WithinScaled (s + eps) m l u w := by
  obtain ⟨a, hr, rfl⟩ := tube_ok h
  obtain ⟨hk, h1, h2⟩ := tube_get hk
  have hja : j < a.len := by omega
  obtain ⟨m, w, hm, hw, hml, hwl, hd⟩ := train_dist heps hr (fun _ _ => rfl) t0 t1 hsim x hx hsimx s hs hdist j hja
  refine ⟨_, _, m, w, h1, h2, hm, hw, by simp [segment, hwl], by simp [segment, hwl], by rw [hwl, hml], ?_⟩
  intro c p l u q hp hl hu hq
  obtain ⟨he, hb⟩ := hd c p q hp hq
  have hc : c < a.dims := hml ▸ (List.getElem?_eq_some_iff.1 hp).1
  simp only [segment, List.getElem?_map, List.getElem?_range hc, Option.map_some, Option.some.injEq] at hl hu
  have hp1 := hr.checked.pos j hja c hc
  have hle : l ≤ p - df eps isZero a (delta lo hi) j c := by
    rw [← hl, he]
    rcases hj with rfl | rfl
    · exact min_le_right _ _
    · exact min_le_left _ _
  have hge : p + df eps isZero a (delta lo hi) j c ≤ u := by
    rw [← hu, he]
    rcases hj with rfl | rfl
    · exact le_max_right _ _
    · exact le_max_left _ _
  have hb' := abs_le.1 hb
  constructor
  · nlinarith
  · nlinarith

/-- A row within a rectangle enlarged by a factor at most 1 is within the rectangle. -/
theorem within_of_scaled {f : K} (hf : f ≤ 1) {m l u w : List K} (hlu : Within l u m) (h : WithinScaled f m l u w) : Within l u w := by
  obtain ⟨h1, h2, h3, h4⟩ := h
  have b1 := List.forall₂_iff_get.1 hlu.1
  have b2 := List.forall₂_iff_get.1 hlu.2
  constructor
  · rw [List.forall₂_iff_get]
    refine ⟨h1.symm, fun i hi1 hi2 => ?_⟩
    have hl := b1.2 i hi1 (by omega)
    have := (h4 i _ _ _ _ (List.getElem?_eq_getElem (by omega)) (List.getElem?_eq_getElem hi1) (List.getElem?_eq_getElem (by omega)) (List.getElem?_eq_getElem hi2)).1
    simp only [List.get_eq_getElem] at hl ⊢
    nlinarith
  · rw [List.forall₂_iff_get]
    refine ⟨h2, fun i hi1 hi2 => ?_⟩
    have hl := b2.2 i (by omega) hi2
    have := (h4 i _ _ _ _ (List.getElem?_eq_getElem (by omega)) (List.getElem?_eq_getElem (by omega)) (List.getElem?_eq_getElem hi2) (List.getElem?_eq_getElem hi1)).2
    simp only [List.get_eq_getElem] at hl ⊢
    nlinarith

/-- **C40** for the training traces (partial: their initial points keep a relative distance `eps`, which is 1e-10 in the code,
from the boundary of the initial set; see `C40_corner_violated`). Every rectangle contains the two samples between which it lies. -/
theorem C40_training_partial (eps : K) (heps : 0 < eps) (heps1 : eps ≤ 1) (sim : List K → List (List K)) (lo hi : List K) (rnd tube : List (List K))
    (h : bloatedTube eps sim lo hi rnd = .ok tube)
    (t0 t1 : K) (hsim : (sim (center lo hi))[0]? = some (t0 :: center lo hi)) (x : List K) (hx : x ∈ rnd)
    (hsimx : (sim (randomPoint lo hi x))[0]? = some (t1 :: randomPoint lo hi x))
    (hdist : ∀ (d : Nat) (m q r : K), (center lo hi)[d]? = some m → (randomPoint lo hi x)[d]? = some q → (delta lo hi)[d]? = some r → |m - q| ≤ (1 - eps) * r)
    (k : Nat) (hk : 2 * k + 1 < tube.length) (j : Nat) (hj : j = k ∨ j = k + 1) :
    ∃ l u w, tube[2 * k]? = some l ∧ tube[2 * k + 1]? = some u ∧ (sim (randomPoint lo hi x))[j]? = some w ∧ Within l u w := by
  obtain ⟨l, u, m, w, h1, h2, h3, h4, h5⟩ := C40_training eps heps sim lo hi rnd tube h t0 t1 hsim x hx hsimx (1 - eps) (by linarith) hdist k hk j hj
  obtain ⟨l', u', m1, m2, g1, g2, g3, g4, g5, g6⟩ := C40_center eps sim lo hi rnd tube h k hk
  rw [h1] at g1
  rw [h2] at g2
  injection g1 with g1
  injection g2 with g2
  subst g1
  subst g2
  refine ⟨l, u, w, h1, h2, h4, within_of_scaled (f := 1 - eps + eps) (by linarith) ?_ h5⟩
  rcases hj with rfl | rfl
  · rw [h3] at g3
    injection g3 with g3
    exact g3 ▸ g5
  · rw [h3] at g4
    injection g4 with g4
    exact g4 ▸ g6

/-- The points drawn at random in the initial set have distance at most the radius from the center: `C40_training` applies to
all of them with `s = 1`. -/
theorem C40_random (lo hi x : List K) (hb : List.Forall₂ (· ≤ ·) lo hi) (hx : ∀ y ∈ x, 0 ≤ y ∧ y ≤ 1) (d : Nat) (m q r : K)
    (hm : (center lo hi)[d]? = some m) (hq : (randomPoint lo hi x)[d]? = some q) (hr : (delta lo hi)[d]? = some r) : |m - q| ≤ 1 * r := by
  simp only [center, delta, randomPoint, List.getElem?_zipWith_eq_some, List.getElem?_zip_eq_some] at hm hq hr
  obtain ⟨l, u, hl, hu, rfl⟩ := hm
  obtain ⟨⟨l', u'⟩, y, ⟨hl', hu'⟩, hy, rfl⟩ := hq
  obtain ⟨l'', u'', hl'', hu'', rfl⟩ := hr
  rw [hl] at hl' hl''
  rw [hu] at hu' hu''
  injection hl' with e1
  injection hu' with e2
  injection hl'' with e3
  injection hu'' with e4
  dsimp only at e1 e2 ⊢
  subst e1 e2 e3 e4
  have hlu : l ≤ u := by
    have := (List.forall₂_iff_get.1 hb).2 d (List.getElem?_eq_some_iff.1 hl).1 (List.getElem?_eq_some_iff.1 hu).1
    simp only [List.get_eq_getElem] at this
    rw [(List.getElem?_eq_some_iff.1 hl).2, (List.getElem?_eq_some_iff.1 hu).2] at this
    exact this
  obtain ⟨h0, h1⟩ := hx y (List.mem_of_getElem? hy)
  rw [abs_le]
  constructor
  · nlinarith
  · nlinarith

/-- **C40** for the discrete-time variant (partial: no radius is between 0 and 1e-10; training traces as before). The rectangle
of each sample time contains the sample of the center trace and of the training trace. -/
theorem C40_disc_partial (eps : K) (heps : 0 < eps) (heps1 : eps ≤ 1) (sim : List K → List (List K)) (lo hi : List K) (rnd tube : List (List K))
    (h : bloatedTubeDisc eps sim lo hi rnd = .ok tube) (hrad : ∀ r ∈ delta lo hi, r = 0 ∨ 1 / 10 ^ 10 ≤ r)
    (t0 t1 : K) (hsim : (sim (center lo hi))[0]? = some (t0 :: center lo hi)) (x : List K) (hx : x ∈ rnd)
    (hsimx : (sim (randomPoint lo hi x))[0]? = some (t1 :: randomPoint lo hi x))
    (hdist : ∀ (d : Nat) (m q r : K), (center lo hi)[d]? = some m → (randomPoint lo hi x)[d]? = some q → (delta lo hi)[d]? = some r → |m - q| ≤ (1 - eps) * r)
    (k : Nat) (hk : 2 * k + 1 < tube.length) :
    ∃ l u m w, tube[2 * k]? = some l ∧ tube[2 * k + 1]? = some u ∧ (sim (center lo hi))[k]? = some m ∧ (sim (randomPoint lo hi x))[k]? = some w ∧
      Within l u m ∧ Within l u w := by
  obtain ⟨a, hr, rfl⟩ := tubeDisc_ok h
  obtain ⟨hk, h1, h2⟩ := tubeDisc_get hk
  have hsm : ∀ d < (delta lo hi).length, normRadius isTiny (delta lo hi) d = normRadius isZero (delta lo hi) d := by
    intro d hd
    unfold normRadius isTiny isZero
    rw [List.getElem?_eq_getElem hd, Option.getD_some]
    rcases hrad _ (List.getElem_mem hd) with h0 | h0
    · rw [h0]
      have : (0 : K) < 1 / 10 ^ 10 := by positivity
      simp [this]
    · have h1 : ¬ ((delta lo hi)[d] < 1 / 10 ^ 10) := not_lt.2 h0
      have h2 : ¬ ((delta lo hi)[d] = 0) := fun e => by
        have : (0 : K) < 1 / 10 ^ 10 := by positivity
        rw [e] at h0
        exact absurd this (not_lt.2 h0)
      simp only [decide_eq_true_eq, if_neg h1, if_neg h2]
  obtain ⟨m, w, hm, hw, hml, hwl, hd⟩ := train_dist heps hr hsm t0 t1 hsim x hx hsimx (1 - eps) (by linarith) hdist k hk
  have hmv : ∀ (c : Nat) (p : K), m[c]? = some p → p = a.at_ 0 k c := by
    intro c p hp
    have hc : c < w.length := by rw [hwl, ← hml]; exact (List.getElem?_eq_some_iff.1 hp).1
    exact (hd c p _ hp (List.getElem?_eq_getElem hc)).1
  refine ⟨_, _, m, w, h1, h2, hm, hw, within_range hml ?_, within_range hwl ?_⟩
  · intro c p hp
    have hc : c < a.dims := hml ▸ (List.getElem?_eq_some_iff.1 hp).1
    have hp1 := hr.checked.pos k hk c hc
    rw [hmv c p hp]
    exact ⟨by linarith, by linarith⟩
  · intro c q hq
    have hc : c < a.dims := hwl ▸ (List.getElem?_eq_some_iff.1 hq).1
    have hc' : c < m.length := by rw [hml]; exact hc
    obtain ⟨e, hb⟩ := hd c _ q (List.getElem?_eq_getElem hc') hq
    rw [show (1 : K) - eps + eps = 1 by ring, one_mul, e] at hb
    have := abs_le.1 hb
    exact ⟨by linarith, by linarith⟩

namespace DryEx

/-- Two samples after the start, constant dynamics. -/
def sim (x : List ℚ) : List (List ℚ) := [0 :: x, 1 :: x, 2 :: x]

/-- Dynamics that expand by the factor 2. -/
def sim2 (x : List ℚ) : List (List ℚ) := [0 :: x, 1 :: x.map (2 * ·), 2 :: x.map (4 * ·)]

def eps : ℚ := 1 / 10 ^ 10

end DryEx

/-- The hypotheses of the theorems hold: initial set `[1, 3]`, one random point, expanding dynamics. -/
example : bloatedTube DryEx.eps DryEx.sim2 [1] [3] [[3/4]] =
    .ok [[0, 1], [1, 4 + 2 / (1 + 2 / 10 ^ 10)], [1, 4 - 2 / (1 + 2 / 10 ^ 10)], [2, 8 + 4 / (1 + 2 / 10 ^ 10)]] := by decide +kernel

example : center [1] [3] = [(2 : ℚ)] ∧ randomPoint [1] [3] [3/4] = [(5/2 : ℚ)] := by decide +kernel

example : ∃ l u w, ([[0, 1], [1, 4 + 2 / (1 + 2 / 10 ^ 10)], [1, 4 - 2 / (1 + 2 / 10 ^ 10)], [2, 8 + 4 / (1 + 2 / 10 ^ 10)]] : List (List ℚ))[2 * 1]? = some l ∧
    ([[0, 1], [1, 4 + 2 / (1 + 2 / 10 ^ 10)], [1, 4 - 2 / (1 + 2 / 10 ^ 10)], [2, 8 + 4 / (1 + 2 / 10 ^ 10)]] : List (List ℚ))[2 * 1 + 1]? = some u ∧
    (DryEx.sim2 (randomPoint [1] [3] [3/4]))[2]? = some w ∧ Within l u w :=
  C40_training_partial DryEx.eps (by decide +kernel) (by decide +kernel) DryEx.sim2 [1] [3] [[3/4]] _ (by decide +kernel) 0 0 (by decide +kernel) [3/4] (by simp)
    (by decide +kernel)
    (by
      intro d m q r hm hq hr
      match d with
      | 0 =>
        have e1 : (center [1] [3] : List ℚ)[0]? = some 2 := by decide +kernel
        have e2 : (randomPoint [1] [3] [3/4] : List ℚ)[0]? = some (5/2) := by decide +kernel
        have e3 : (delta [1] [3] : List ℚ)[0]? = some 1 := by decide +kernel
        rw [e1] at hm; rw [e2] at hq; rw [e3] at hr
        injection hm with hm; injection hq with hq; injection hr with hr
        subst hm hq hr
        decide +kernel
      | d + 1 => simp [center] at hm)
    1 (by decide +kernel) 2 (Or.inr rfl)

example : ∃ l u, ([[0, 1], [1, 4 + 2 / (1 + 2 / 10 ^ 10)], [1, 4 - 2 / (1 + 2 / 10 ^ 10)], [2, 8 + 4 / (1 + 2 / 10 ^ 10)]] : List (List ℚ))[0]? = some l ∧
    ([[0, 1], [1, 4 + 2 / (1 + 2 / 10 ^ 10)], [1, 4 - 2 / (1 + 2 / 10 ^ 10)], [2, 8 + 4 / (1 + 2 / 10 ^ 10)]] : List (List ℚ))[1]? = some u ∧ Within l u (0 :: [1]) :=
  C40_initial DryEx.eps DryEx.sim2 [1] [3] [[3/4]] _ (by decide +kernel) (by decide +kernel) 0 (by decide +kernel) [1]
    ⟨.cons (by norm_num) .nil, .cons (by norm_num) .nil⟩

/-- The discrete-time variant with the same data: `C40_disc_partial` applies. -/
example : bloatedTubeDisc DryEx.eps DryEx.sim2 [1] [3] [[3/4]] =
      .ok [[0, 1], [0, 3], [1, 4 - 2 / (1 + 2 / 10 ^ 10)], [1, 4 + 2 / (1 + 2 / 10 ^ 10)], [2, 8 - 4 / (1 + 2 / 10 ^ 10)], [2, 8 + 4 / (1 + 2 / 10 ^ 10)]] ∧
    ∀ r ∈ (delta [1] [3] : List ℚ), r = 0 ∨ 1 / 10 ^ 10 ≤ r := by decide +kernel

/-- **C40 fails** for a simulation from a corner of the initial set, although it is one of the simulations the tube is built from:
the rectangle between the samples 1 and 2 does not contain it (constant dynamics, initial set `[-1, 1]`, simulation from `1`). -/
theorem C40_corner_violated :
    ∃ tube l u w, bloatedTube DryEx.eps DryEx.sim [-1] [1] [[1]] = .ok tube ∧ tube[2]? = some l ∧ tube[3]? = some u ∧
      (DryEx.sim (randomPoint [-1] [1] [1]))[2]? = some w ∧ ¬ Within l u w := by
  refine ⟨[[0, -1], [1, 1], [1, -(1 / (1 + 1 / 10 ^ 10))], [2, 1 / (1 + 1 / 10 ^ 10)]], _, _, [2, 1], by decide +kernel, rfl, rfl, by decide +kernel, ?_⟩
  rintro ⟨-, h⟩
  rw [List.forall₂_cons, List.forall₂_cons] at h
  exact absurd h.2.1 (by norm_num)

/-- **C40 fails** for the discrete-time variant and a positive radius below 1e-10: sensitivities are computed with the radius
replaced by 1, but scaled with the radius itself. With the initial set `[-1e-11, 1e-11]` and a simulation from the middle of its upper half, the samples
at time 1 are out of the tube. -/
theorem C40_disc_tiny_violated :
    ∃ tube l u w, bloatedTubeDisc DryEx.eps DryEx.sim [-(1 / 10 ^ 11)] [1 / 10 ^ 11] [[3/4]] = .ok tube ∧ tube[2]? = some l ∧ tube[3]? = some u ∧
      (DryEx.sim (randomPoint [-(1 / 10 ^ 11)] [1 / 10 ^ 11] [3/4]))[1]? = some w ∧ ¬ Within l u w := by
  refine ⟨[[0, -(1 / 10 ^ 11)], [0, 1 / 10 ^ 11], [1, -(1 / 21 / 10 ^ 11)], [1, 1 / 21 / 10 ^ 11], [2, -(1 / 21 / 10 ^ 11)], [2, 1 / 21 / 10 ^ 11]],
    _, _, [1, 1 / 2 / 10 ^ 11], by decide +kernel, rfl, rfl, by decide +kernel, ?_⟩
  rintro ⟨-, h⟩
  rw [List.forall₂_cons, List.forall₂_cons] at h
  exact absurd h.2.1 (by norm_num)

end Verif.Props
