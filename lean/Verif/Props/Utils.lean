import Verif.Model.Utils
import Verif.Proofs.Basic
import Mathlib.Algebra.BigOperators.Group.List.Basic
import Mathlib.Data.Rat.Floor
import Mathlib.Tactic.Ring
import Mathlib.Tactic.FieldSimp

/-! C49: numeric helpers; C60: geometric helpers. -/

set_option autoImplicit false
set_option linter.unusedSectionVars false

namespace Verif.Props

open Verif.Utl

variable {K : Type} [Field K] [LinearOrder K] [IsStrictOrderedRing K]

/-- **C49**, `dedup`: the result is a part of the list in the same order, with pairwise different keys; every element of the list has the key of an element of the
result which does not come later in the list (the first one with its key). -/
theorem C49_dedup {α κ : Type} [DecidableEq κ] (f : α → κ) (l : List α) :
    (dedupBy f l).Sublist l ∧ ((dedupBy f l).map f).Nodup ∧
    ∀ (l1 l2 : List α) (x : α), l = l1 ++ x :: l2 → (∀ y ∈ l1, f y ≠ f x) → x ∈ dedupBy f l := by
  obtain ⟨h1, h2, -⟩ := dedupBy_spec f l
  refine ⟨h1, h2, ?_⟩
  rintro l1 l2 x rfl hx
  rw [dedupBy_eq, List.foldl_append, List.foldl_cons, ← dedupBy_eq]
  have hsub := (dedupBy_spec f l1).1
  rw [if_neg]
  · have grow : ∀ (l o : List α), x ∈ o → x ∈ l.foldl (fun o i => if o.any (fun p => decide (f i = f p)) then o else o ++ [i]) o := by
      intro l
      induction l with
      | nil => intro o h; exact h
      | cons a l ih =>
        intro o h
        rw [List.foldl_cons]
        apply ih
        split
        · exact h
        · exact List.mem_append_left _ h
    exact grow l2 _ (by simp)
  · simp only [List.any_eq_true, decide_eq_true_eq, not_exists, not_and]
    intro y hy e
    exact hx y (hsub.subset hy) e.symm

/-- **C49**, `near_split` with a positive number of bins: as many parts as bins, which add up to the total and differ by at most one. -/
theorem C49_near_split (x n : Int) (hn : 0 < n) : ∃ parts, nearSplit x n = some parts ∧ (parts.length : Int) = n ∧ parts.sum = x ∧
    ∀ a ∈ parts, ∀ b ∈ parts, a - b ≤ 1 := by
  unfold nearSplit
  rw [if_neg hn.ne']
  have h0 : 0 ≤ x.fmod n := Int.fmod_nonneg_of_pos _ hn
  have h1 : x.fmod n < n := Int.fmod_lt_of_pos _ hn
  have h2 : n * x.fdiv n + x.fmod n = x := Int.mul_fdiv_add_fmod x n
  refine ⟨_, rfl, ?_, ?_, ?_⟩
  · unfold repeatInt
    rw [List.length_append, List.length_replicate, List.length_replicate]
    omega
  · unfold repeatInt
    rw [List.sum_append, List.sum_replicate, List.sum_replicate, nsmul_eq_mul, nsmul_eq_mul]
    have e1 : (((x.fmod n).toNat : Int)) = x.fmod n := Int.toNat_of_nonneg h0
    have e2 : (((n - x.fmod n).toNat : Int)) = n - x.fmod n := Int.toNat_of_nonneg (by omega)
    rw [e1, e2]
    linarith
  · intro a ha b hb
    unfold repeatInt at ha hb
    simp only [List.mem_append, List.mem_replicate] at ha hb
    omega

/-- **C49**, `near_split` with a positive size: the parts add up, differ by at most one, and none exceeds the size. -/
theorem C49_near_split_size (x size : Int) (hx : 0 < x) (hs : 0 < size) : ∃ parts, nearSplitSize x size = some parts ∧ parts.sum = x ∧
    (∀ a ∈ parts, ∀ b ∈ parts, a - b ≤ 1) ∧ ∀ a ∈ parts, a ≤ size := by
  unfold nearSplitSize
  rw [if_neg hs.ne']
  have hq : (0 : ℚ) < (x : ℚ) / size := div_pos (by exact_mod_cast hx) (by exact_mod_cast hs)
  have hc : 0 < ⌈(x : ℚ) / (size : ℚ)⌉ := Int.ceil_pos.2 hq
  have hle : x ≤ ⌈(x : ℚ) / (size : ℚ)⌉ * size := by
    have := Int.le_ceil ((x : ℚ) / size)
    rw [div_le_iff₀ (by exact_mod_cast hs)] at this
    exact_mod_cast this
  obtain ⟨parts, h1, h2, h3, h4⟩ := C49_near_split x _ hc
  refine ⟨parts, h1, h3, h4, ?_⟩
  intro a ha
  unfold nearSplit at h1
  rw [if_neg hc.ne'] at h1
  injection h1 with h1
  subst h1
  generalize ⌈(x : ℚ) / (size : ℚ)⌉ = n at *
  have e0 : 0 ≤ x.fmod n := Int.fmod_nonneg_of_pos _ hc
  have e2 : n * x.fdiv n + x.fmod n = x := Int.mul_fdiv_add_fmod x n
  unfold repeatInt at ha
  simp only [List.mem_append, List.mem_replicate] at ha
  have hfd : x.fdiv n ≤ size := by
    by_contra hcon
    have : n * (size + 1) ≤ n * x.fdiv n := mul_le_mul_of_nonneg_left (by omega) hc.le
    nlinarith
  rcases ha with ⟨h, rfl⟩ | ⟨-, rfl⟩
  · have hpos : 0 < x.fmod n := by omega
    by_contra hcon
    have he : x.fdiv n = size := by omega
    rw [he] at e2
    nlinarith
  · exact hfd

/-- **C49**, `wrap_to_pi`: the result is in `[-p, p)` and differs from the argument by a multiple of the full turn. -/
theorem C49_wrap [FloorRing K] (p x : K) (hp : 0 < p) : -p ≤ wrapToPi p x ∧ wrapToPi p x < p ∧ ∃ k : Int, x = wrapToPi p x + 2 * p * k := by
  unfold wrapToPi
  have h2 : 0 < 2 * p := by linarith
  have h3 := Int.floor_le ((x + p) / (2 * p))
  have h4 := Int.lt_floor_add_one ((x + p) / (2 * p))
  rw [le_div_iff₀ h2] at h3
  rw [div_lt_iff₀ h2] at h4
  refine ⟨by linarith, by linarith, ⌊(x + p) / (2 * p)⌋, by ring⟩

/-- It is the only such angle. -/
theorem C49_wrap_unique [FloorRing K] (p x y : K) (hp : 0 < p) (h1 : -p ≤ y) (h2 : y < p) (h3 : ∃ k : Int, x = y + 2 * p * k) : y = wrapToPi p x := by
  obtain ⟨k, rfl⟩ := h3
  unfold wrapToPi
  have h2p : 0 < 2 * p := by linarith
  have : ⌊(y + 2 * p * k + p) / (2 * p)⌋ = k := by
    rw [Int.floor_eq_iff, le_div_iff₀ h2p, div_lt_iff₀ h2p]
    constructor <;> linarith
  rw [this]
  ring

/-- `lmap` is the affine map between the intervals. -/
theorem C49_lmap (v : K) (x y : K × K) (hx : x.1 < x.2) (hy : y.1 ≤ y.2) :
    lmap x.1 x y = y.1 ∧ lmap x.2 x y = y.2 ∧ (x.1 ≤ v → v ≤ x.2 → y.1 ≤ lmap v x y ∧ lmap v x y ≤ y.2) := by
  have h : 0 < x.2 - x.1 := by linarith
  unfold lmap
  refine ⟨by simp, by field_simp; ring, ?_⟩
  intro h1 h2
  constructor
  · have : 0 ≤ (v - x.1) * (y.2 - y.1) / (x.2 - x.1) := div_nonneg (mul_nonneg (by linarith) (by linarith)) h.le
    linarith
  · have : (v - x.1) * (y.2 - y.1) / (x.2 - x.1) ≤ y.2 - y.1 := by
      rw [div_le_iff₀ h]
      rw [mul_comm (y.2 - y.1)]
      exact mul_le_mul_of_nonneg_right (by linarith) (by linarith)
    linarith

/-- `not_zero` keeps the sign and is at least `eps` in absolute value. -/
theorem C49_not_zero (x eps : K) (he : 0 < eps) : eps ≤ |notZero x eps| ∧ (0 ≤ x → 0 ≤ notZero x eps) ∧ (x < 0 → notZero x eps < 0) := by
  unfold notZero
  by_cases h : eps < |x|
  · rw [if_pos h]; exact ⟨h.le, fun h => h, fun h => h⟩
  · rw [if_neg h]
    by_cases h0 : 0 ≤ x
    · rw [if_pos h0, abs_of_pos he]; exact ⟨le_rfl, fun _ => he.le, fun h => absurd h0 (not_le.2 h)⟩
    · rw [if_neg h0, abs_neg, abs_of_pos he]; exact ⟨le_rfl, fun h => absurd h h0, fun _ => by linarith⟩

/-- A sampled initial state lies in the initial rectangle. -/
theorem C49_sample (lo hi u : List K) (hl : List.Forall₂ (· ≤ ·) lo hi) (hu : u.length = lo.length) (h01 : ∀ x ∈ u, 0 ≤ x ∧ x < 1) :
    List.Forall₂ (· ≤ ·) lo (sampleRect lo hi u) ∧ List.Forall₂ (· ≤ ·) (sampleRect lo hi u) hi := by
  induction hl generalizing u with
  | nil =>
    cases u with
    | nil => exact ⟨.nil, .nil⟩
    | cons => simp at hu
  | @cons a b lo hi hab _ ih =>
    cases u with
    | nil => simp at hu
    | cons x u =>
      obtain ⟨h1, h2⟩ := ih u (by simpa using hu) (fun y hy => h01 y (List.mem_cons_of_mem _ hy))
      obtain ⟨x0, x1⟩ := h01 x (by simp)
      have hm : 0 ≤ x * (b - a) := mul_nonneg x0 (by linarith)
      have hm' : x * (b - a) ≤ 1 * (b - a) := mul_le_mul_of_nonneg_right x1.le (by linarith)
      refine ⟨.cons ?_ h1, .cons ?_ h2⟩
      · show a ≤ a + x * (b - a); linarith
      · show a + x * (b - a) ≤ b; linarith

/-! ### Geometry -/

/-- The convex hull of a list of points. -/
def Hull (poly : List (K × K)) (q : K × K) : Prop :=
  ∃ w : List K, w.length = poly.length ∧ (∀ x ∈ w, 0 ≤ x) ∧ w.sum = 1 ∧
    q.1 = (List.zipWith (fun x (v : K × K) => x * v.1) w poly).sum ∧ q.2 = (List.zipWith (fun x (v : K × K) => x * v.2) w poly).sum

theorem projectLoop_spec (axis : K × K) : ∀ (ps : List (K × K)) (acc : Option (K × K)) (lo hi : K), projectLoop axis ps acc = some (lo, hi) →
    (∀ q ∈ ps, lo ≤ q.1 * axis.1 + q.2 * axis.2 ∧ q.1 * axis.1 + q.2 * axis.2 ≤ hi) ∧ (∀ l h, acc = some (l, h) → lo ≤ l ∧ h ≤ hi)
  | [], acc, lo, hi, h => by
    rw [projectLoop] at h
    refine ⟨by simp, ?_⟩
    intro l h' e
    rw [h] at e; injection e with e; injection e with e1 e2
    exact ⟨e1.le, e2.symm.le⟩
  | q :: ps, none, lo, hi, h => by
    rw [projectLoop] at h
    obtain ⟨h1, h2⟩ := projectLoop_spec axis ps _ lo hi h
    obtain ⟨h3, h4⟩ := h2 _ _ rfl
    refine ⟨?_, by simp⟩
    intro r hr
    rcases List.mem_cons.1 hr with rfl | hr
    · exact ⟨h3, h4⟩
    · exact h1 r hr
  | q :: ps, some (l, u), lo, hi, h => by
    rw [projectLoop] at h
    obtain ⟨h1, h2⟩ := projectLoop_spec axis ps _ lo hi h
    obtain ⟨h3, h4⟩ := h2 _ _ rfl
    have a1 : (if q.1 * axis.1 + q.2 * axis.2 < l then q.1 * axis.1 + q.2 * axis.2 else l) ≤ l ∧
        (if q.1 * axis.1 + q.2 * axis.2 < l then q.1 * axis.1 + q.2 * axis.2 else l) ≤ q.1 * axis.1 + q.2 * axis.2 := by
      split
      · exact ⟨by linarith, le_rfl⟩
      · exact ⟨le_rfl, by linarith⟩
    have a2 : u ≤ (if u < q.1 * axis.1 + q.2 * axis.2 then q.1 * axis.1 + q.2 * axis.2 else u) ∧
        q.1 * axis.1 + q.2 * axis.2 ≤ (if u < q.1 * axis.1 + q.2 * axis.2 then q.1 * axis.1 + q.2 * axis.2 else u) := by
      split
      · exact ⟨by linarith, le_rfl⟩
      · exact ⟨le_rfl, by linarith⟩
    refine ⟨?_, ?_⟩
    · intro r hr
      rcases List.mem_cons.1 hr with rfl | hr
      · exact ⟨h3.trans a1.2, a2.2.trans h4⟩
      · exact h1 r hr
    · intro l' u' e
      injection e with e; injection e with e1 e2
      subst e1 e2
      exact ⟨h3.trans a1.1, a2.1.trans h4⟩

/-- The projection of the hull lies between the extreme projections of the vertices. -/
theorem hull_project {poly : List (K × K)} {axis q : K × K} {lo hi : K} (h : projectPolygon poly axis = some (lo, hi)) (hq : Hull poly q) :
    lo ≤ q.1 * axis.1 + q.2 * axis.2 ∧ q.1 * axis.1 + q.2 * axis.2 ≤ hi := by
  obtain ⟨h1, -⟩ := projectLoop_spec axis poly none lo hi h
  obtain ⟨w, hl, hw, hs, e1, e2⟩ := hq
  have key : ∀ (poly : List (K × K)) (w : List K), w.length = poly.length → (∀ x ∈ w, 0 ≤ x) →
      (∀ q ∈ poly, lo ≤ q.1 * axis.1 + q.2 * axis.2 ∧ q.1 * axis.1 + q.2 * axis.2 ≤ hi) →
      w.sum * lo ≤ (List.zipWith (fun x (v : K × K) => x * v.1) w poly).sum * axis.1 + (List.zipWith (fun x (v : K × K) => x * v.2) w poly).sum * axis.2 ∧
      (List.zipWith (fun x (v : K × K) => x * v.1) w poly).sum * axis.1 + (List.zipWith (fun x (v : K × K) => x * v.2) w poly).sum * axis.2 ≤ w.sum * hi := by
    intro poly
    induction poly with
    | nil => intro w hl _ _; cases w with
      | nil => simp
      | cons => simp at hl
    | cons v poly ih =>
      intro w hl hw hb
      cases w with
      | nil => simp at hl
      | cons x w =>
        obtain ⟨i1, i2⟩ := ih w (by simpa using hl) (fun y hy => hw y (List.mem_cons_of_mem _ hy)) (fun y hy => hb y (List.mem_cons_of_mem _ hy))
        obtain ⟨b1, b2⟩ := hb v (by simp)
        have hx := hw x (by simp)
        simp only [List.zipWith_cons_cons, List.sum_cons]
        have m1 := mul_le_mul_of_nonneg_left b1 hx
        have m2 := mul_le_mul_of_nonneg_left b2 hx
        constructor <;> linarith
  have := key poly w hl hw h1
  rw [hs, ← e1, ← e2, one_mul, one_mul] at this
  exact this

theorem edgeLoop_spec (norm : K × K → K) (a b : List (K × K)) (v : K × K) : ∀ (es : List ((K × K) × (K × K))) (st st' : Bool × Bool),
    edgeLoop norm a b v es st = .ok st' →
    (st'.1 = false → st.1 = false ∨ ¬ ∃ q, Hull a q ∧ Hull b q) ∧
    (st'.2 = false → st.2 = false ∨ ∀ t, 0 ≤ t → t ≤ 1 → ¬ ∃ q, Hull a q ∧ Hull b (q.1 + t * v.1, q.2 + t * v.2)) := by
  intro es
  induction es with
  | nil =>
    intro st st' h
    rw [edgeLoop] at h
    injection h with h; subst h
    exact ⟨Or.inl, Or.inl⟩
  | cons e es ih =>
    intro st st' h
    obtain ⟨p1, p2⟩ := e
    rw [edgeLoop] at h
    dsimp only at h
    generalize normalOf norm p1 p2 = n at h
    cases ha : projectPolygon a n with
    | none => rw [ha] at h; cases h
    | some la =>
      cases hb : projectPolygon b n with
      | none => rw [ha, hb] at h; cases h
      | some lb =>
        obtain ⟨minA, maxA⟩ := la
        obtain ⟨minB, maxB⟩ := lb
        rw [ha, hb] at h
        dsimp only at h
        -- the new flags
        have f1 : ((if 0 < intervalDistance minA maxA minB maxB then false else st.1) = false) → st.1 = false ∨ ¬ ∃ q, Hull a q ∧ Hull b q := by
          intro hf
          by_cases hd : 0 < intervalDistance minA maxA minB maxB
          · right
            rintro ⟨q, qa, qb⟩
            obtain ⟨a1, a2⟩ := hull_project ha qa
            obtain ⟨b1, b2⟩ := hull_project hb qb
            unfold intervalDistance at hd
            split at hd <;> linarith
          · rw [if_neg hd] at hf; exact .inl hf
        have f2 : ((if 0 < (if n.1 * v.1 + n.2 * v.2 < 0 then intervalDistance (minA + (n.1 * v.1 + n.2 * v.2)) maxA minB maxB
            else intervalDistance minA (maxA + (n.1 * v.1 + n.2 * v.2)) minB maxB) then false else st.2) = false) →
            st.2 = false ∨ ∀ t, 0 ≤ t → t ≤ 1 → ¬ ∃ q, Hull a q ∧ Hull b (q.1 + t * v.1, q.2 + t * v.2) := by
          intro hf
          by_cases hd : 0 < (if n.1 * v.1 + n.2 * v.2 < 0 then intervalDistance (minA + (n.1 * v.1 + n.2 * v.2)) maxA minB maxB
            else intervalDistance minA (maxA + (n.1 * v.1 + n.2 * v.2)) minB maxB)
          · right
            rintro t t0 t1 ⟨q, qa, qb⟩
            obtain ⟨a1, a2⟩ := hull_project ha qa
            obtain ⟨b1, b2⟩ := hull_project hb qb
            dsimp only at b1 b2
            have e : (q.1 + t * v.1) * n.1 + (q.2 + t * v.2) * n.2 = q.1 * n.1 + q.2 * n.2 + t * (n.1 * v.1 + n.2 * v.2) := by ring
            rw [e] at b1 b2
            by_cases hv : n.1 * v.1 + n.2 * v.2 < 0
            · rw [if_pos hv] at hd
              have m1 : 1 * (n.1 * v.1 + n.2 * v.2) ≤ t * (n.1 * v.1 + n.2 * v.2) := mul_le_mul_of_nonpos_right t1 hv.le
              have m2 : t * (n.1 * v.1 + n.2 * v.2) ≤ 0 := mul_nonpos_of_nonneg_of_nonpos t0 hv.le
              unfold intervalDistance at hd
              split at hd <;> linarith
            · rw [if_neg hv] at hd
              have m1 : t * (n.1 * v.1 + n.2 * v.2) ≤ 1 * (n.1 * v.1 + n.2 * v.2) := mul_le_mul_of_nonneg_right t1 (not_lt.1 hv)
              have m2 : 0 ≤ t * (n.1 * v.1 + n.2 * v.2) := mul_nonneg t0 (not_lt.1 hv)
              unfold intervalDistance at hd
              split at hd <;> linarith
          · rw [if_neg hd] at hf; exact .inl hf
        generalize (if 0 < intervalDistance minA maxA minB maxB then false else st.1) = x at *
        generalize (if 0 < (if n.1 * v.1 + n.2 * v.2 < 0 then intervalDistance (minA + (n.1 * v.1 + n.2 * v.2)) maxA minB maxB
            else intervalDistance minA (maxA + (n.1 * v.1 + n.2 * v.2)) minB maxB) then false else st.2) = y at *
        by_cases hx : (!x && !y) = true
        · rw [if_pos hx] at h
          injection h with h; subst h
          exact ⟨f1, f2⟩
        · rw [if_neg hx] at h
          obtain ⟨i1, i2⟩ := ih (x, y) st' h
          exact ⟨fun e => (i1 e).elim f1 Or.inr, fun e => (i2 e).elim f2 Or.inr⟩

/-- **C60**: polygons reported as not intersecting have no common point, and polygons reported as not going to intersect have none while the first moves by the (relative)
displacement `v`. -/
theorem C60_polygons (norm : K × K → K) (a b : List (K × K)) (v : K × K) (now will : Bool) (run : arePolygonsIntersecting norm a b v = .ok (now, will)) :
    (now = false → ¬ ∃ q, Hull a q ∧ Hull b q) ∧
    (will = false → ∀ t, 0 ≤ t → t ≤ 1 → ¬ ∃ q, Hull a q ∧ Hull b (q.1 + t * v.1, q.2 + t * v.2)) := by
  obtain ⟨st, h1, h2⟩ := (bind_ok_iff _ _ _).1 run
  obtain ⟨a1, a2⟩ := edgeLoop_spec norm a b v _ _ _ h1
  obtain ⟨b1, b2⟩ := edgeLoop_spec norm a b v _ _ _ h2
  refine ⟨fun e => ?_, fun e => ?_⟩
  · rcases b1 e with h | h
    · rcases a1 h with h | h
      · cases h
      · exact h
    · exact h
  · rcases b2 e with h | h
    · rcases a2 h with h | h
      · cases h
      · exact h
    · exact h

/-- Scalar product. -/
def dot (q n : K × K) : K := q.1 * n.1 + q.2 * n.2

theorem projectLoop_attained (axis : K × K) : ∀ (ps : List (K × K)) (acc : Option (K × K)) (lo hi : K), projectLoop axis ps acc = some (lo, hi) →
    ((∃ q ∈ ps, dot q axis = lo) ∨ ∃ h, acc = some (lo, h)) ∧ ((∃ q ∈ ps, dot q axis = hi) ∨ ∃ l, acc = some (l, hi))
  | [], acc, lo, hi, h => ⟨Or.inr ⟨hi, h⟩, Or.inr ⟨lo, h⟩⟩
  | q :: ps, none, lo, hi, h => by
    rw [projectLoop] at h
    obtain ⟨h1, h2⟩ := projectLoop_attained axis ps _ lo hi h
    constructor
    · rcases h1 with ⟨r, hr, e⟩ | ⟨_, e⟩
      · exact Or.inl ⟨r, List.mem_cons_of_mem _ hr, e⟩
      · injection e with e; injection e with e1 e2
        exact Or.inl ⟨q, List.mem_cons_self, e1⟩
    · rcases h2 with ⟨r, hr, e⟩ | ⟨_, e⟩
      · exact Or.inl ⟨r, List.mem_cons_of_mem _ hr, e⟩
      · injection e with e; injection e with e1 e2
        exact Or.inl ⟨q, List.mem_cons_self, e2⟩
  | q :: ps, some (l, u), lo, hi, h => by
    rw [projectLoop] at h
    obtain ⟨h1, h2⟩ := projectLoop_attained axis ps _ lo hi h
    constructor
    · rcases h1 with ⟨r, hr, e⟩ | ⟨_, e⟩
      · exact Or.inl ⟨r, List.mem_cons_of_mem _ hr, e⟩
      · injection e with e; injection e with e1 e2
        split at e1
        · exact Or.inl ⟨q, List.mem_cons_self, e1⟩
        · exact Or.inr ⟨u, by rw [e1]⟩
    · rcases h2 with ⟨r, hr, e⟩ | ⟨_, e⟩
      · exact Or.inl ⟨r, List.mem_cons_of_mem _ hr, e⟩
      · injection e with e; injection e with e1 e2
        split at e2
        · exact Or.inl ⟨q, List.mem_cons_self, e2⟩
        · exact Or.inr ⟨l, by rw [e2]⟩

/-- All points of the one polygon are strictly before all points of the other in the direction `n`. -/
def Before (n : K × K) (a b : List (K × K)) : Prop := ∀ q ∈ a, ∀ r ∈ b, dot q n < dot r n

theorem distance_pos_iff {a b : List (K × K)} {n : K × K} {minA maxA minB maxB : K} (ha : projectPolygon a n = some (minA, maxA))
    (hb : projectPolygon b n = some (minB, maxB)) : 0 < intervalDistance minA maxA minB maxB ↔ Before n a b ∨ Before n b a := by
  have sa := (projectLoop_spec n a none minA maxA ha).1
  have sb := (projectLoop_spec n b none minB maxB hb).1
  obtain ⟨ta, ta'⟩ := projectLoop_attained n a none minA maxA ha
  obtain ⟨tb, tb'⟩ := projectLoop_attained n b none minB maxB hb
  simp only [reduceCtorEq, exists_false, or_false] at ta ta' tb tb'
  obtain ⟨q1, hq1, e1⟩ := ta
  obtain ⟨q2, hq2, e2⟩ := ta'
  obtain ⟨r1, hr1, f1⟩ := tb
  obtain ⟨r2, hr2, f2⟩ := tb'
  have hA : minA ≤ maxA := le_trans (sa q1 hq1).1 (sa q1 hq1).2
  have hB : minB ≤ maxB := le_trans (sb r1 hr1).1 (sb r1 hr1).2
  unfold intervalDistance
  constructor
  · intro h
    split at h
    · left
      intro q hq r hr
      have h1 := (sa q hq).2
      have h2 := (sb r hr).1
      unfold dot
      linarith
    · right
      intro q hq r hr
      have h1 := (sb q hq).2
      have h2 := (sa r hr).1
      unfold dot
      linarith
  · rintro (h | h)
    · have := h q2 hq2 r1 hr1
      rw [e2, f1] at this
      rw [if_pos (by linarith)]
      linarith
    · have := h r2 hr2 q1 hq1
      rw [e1, f2] at this
      rw [if_neg (by linarith)]
      linarith

/-- The vector perpendicular to an edge. -/
def perp (e : (K × K) × (K × K)) : K × K := (e.1.2 - e.2.2, e.2.1 - e.1.1)

theorem before_normal {norm : K × K → K} (hn : ∀ v, v ≠ (0, 0) → 0 < norm v) (e : (K × K) × (K × K)) (a b : List (K × K)) (ha : a ≠ []) (hb : b ≠ []) :
    Before (normalOf norm e.1 e.2) a b ↔ Before (perp e) a b := by
  have e1 : normalOf norm e.1 e.2 = ((perp e).1 / norm (perp e), (perp e).2 / norm (perp e)) := by
    unfold normalOf perp
    rw [show -e.2.2 + e.1.2 = e.1.2 - e.2.2 by ring]
  have hd : ∀ q, dot q (normalOf norm e.1 e.2) = dot q (perp e) / norm (perp e) := by
    intro q
    rw [e1]
    unfold dot
    ring
  by_cases h0 : perp e = (0, 0)
  · obtain ⟨q, a, rfl⟩ := List.exists_cons_of_ne_nil ha
    obtain ⟨r, b, rfl⟩ := List.exists_cons_of_ne_nil hb
    constructor <;> intro h
    · have := h q List.mem_cons_self r List.mem_cons_self
      rw [hd, hd, h0] at this
      simp [dot] at this
    · have := h q List.mem_cons_self r List.mem_cons_self
      rw [h0] at this
      simp [dot] at this
  · have hp := hn _ h0
    constructor <;> intro h q hq r hr
    · have := h q hq r hr
      rw [hd, hd] at this
      exact (div_lt_div_iff_of_pos_right hp).1 this
    · rw [hd, hd]
      exact (div_lt_div_iff_of_pos_right hp).2 (h q hq r hr)

theorem edgeLoop_cons {norm : K × K → K} {a b : List (K × K)} {v p1 p2 : K × K} {es : List ((K × K) × (K × K))} {st st' : Bool × Bool}
    (h : edgeLoop norm a b v ((p1, p2) :: es) st = .ok st') :
    ∃ minA maxA minB maxB, projectPolygon a (normalOf norm p1 p2) = some (minA, maxA) ∧ projectPolygon b (normalOf norm p1 p2) = some (minB, maxB) ∧
      ∀ now, now = (if 0 < intervalDistance minA maxA minB maxB then false else st.1) →
        ∃ will : Bool, (if !now && !will then Except.ok (now, will) else edgeLoop norm a b v es (now, will)) = (.ok st' : Except String (Bool × Bool)) := by
  rw [edgeLoop] at h
  cases hpa : projectPolygon a (normalOf norm p1 p2) with
  | none => rw [hpa] at h; cases h
  | some la =>
    cases hpb : projectPolygon b (normalOf norm p1 p2) with
    | none => rw [hpa, hpb] at h; cases h
    | some lb =>
      rw [hpa, hpb] at h
      exact ⟨la.1, la.2, lb.1, lb.2, rfl, rfl, by
        rintro now rfl
        exact ⟨_, h⟩⟩

theorem edgeLoop_stay {norm : K × K → K} {a b : List (K × K)} {v : K × K} : ∀ (es : List ((K × K) × (K × K))) (st st' : Bool × Bool),
    edgeLoop norm a b v es st = .ok st' → st.1 = false → st'.1 = false := by
  intro es
  induction es with
  | nil =>
    intro st st' h hst
    rw [edgeLoop] at h
    injection h with h; subst h
    exact hst
  | cons e es ih =>
    intro st st' h hst
    obtain ⟨p1, p2⟩ := e
    obtain ⟨_, _, _, _, _, _, h⟩ := edgeLoop_cons h
    obtain ⟨will, h⟩ := h false (by rw [hst]; split <;> rfl)
    split at h
    · injection h with h; subst h; rfl
    · exact ih _ _ h rfl

theorem edgeLoop_now {norm : K × K → K} (hn : ∀ v, v ≠ (0, 0) → 0 < norm v) (a b : List (K × K)) (ha : a ≠ []) (hb : b ≠ []) (v : K × K) :
    ∀ (es : List ((K × K) × (K × K))) (st st' : Bool × Bool), edgeLoop norm a b v es st = .ok st' → st.1 = true →
      (st'.1 = false ↔ ∃ e ∈ es, Before (perp e) a b ∨ Before (perp e) b a) := by
  intro es
  induction es with
  | nil =>
    intro st st' h hst
    rw [edgeLoop] at h
    injection h with h; subst h
    simp [hst]
  | cons e es ih =>
    intro st st' h hst
    obtain ⟨p1, p2⟩ := e
    obtain ⟨minA, maxA, minB, maxB, hpa, hpb, h⟩ := edgeLoop_cons h
    have key := distance_pos_iff hpa hpb
    rw [before_normal hn (p1, p2) a b ha hb, before_normal hn (p1, p2) b a hb ha] at key
    obtain ⟨will, h⟩ := h _ rfl
    by_cases hd : 0 < intervalDistance minA maxA minB maxB
    · have hr : ∃ e ∈ (p1, p2) :: es, Before (perp e) a b ∨ Before (perp e) b a := ⟨_, List.mem_cons_self, key.1 hd⟩
      refine ⟨fun _ => hr, fun _ => ?_⟩
      rw [if_pos hd] at h
      split at h
      · injection h with h; subst h; rfl
      · exact edgeLoop_stay _ _ _ h rfl
    · rw [if_neg hd, hst] at h
      simp only [Bool.not_true, Bool.false_and, Bool.false_eq_true, if_false] at h
      rw [ih _ _ h rfl]
      constructor
      · rintro ⟨e, he, hs⟩
        exact ⟨e, List.mem_cons_of_mem _ he, hs⟩
      · rintro ⟨e, he, hs⟩
        rcases List.mem_cons.1 he with rfl | he
        · exact absurd (key.2 hs) hd
        · exact ⟨e, he, hs⟩

/-- **C60**, polygons: the answer for the current positions is "not intersecting" exactly if an edge of one of the polygons
separates them strictly: in the direction perpendicular to the edge, all points of one polygon are before all points of the other. -/
theorem C60_polygons_edges (norm : K × K → K) (hn : ∀ v, v ≠ (0, 0) → 0 < norm v) (a b : List (K × K)) (ha : a ≠ []) (hb : b ≠ []) (v : K × K) (now will : Bool)
    (run : arePolygonsIntersecting norm a b v = .ok (now, will)) :
    now = false ↔ ∃ e ∈ a.zip a.tail ++ b.zip b.tail, Before (perp e) a b ∨ Before (perp e) b a := by
  obtain ⟨st, h1, h2⟩ := (bind_ok_iff _ _ _).1 run
  have g1 := edgeLoop_now hn a b ha hb v _ _ _ h1 rfl
  by_cases hst : st.1 = true
  · rw [edgeLoop_now hn a b ha hb v _ _ _ h2 hst]
    have hno : ¬ ∃ e ∈ a.zip a.tail, Before (perp e) a b ∨ Before (perp e) b a := fun h => by
      rw [g1.2 h] at hst
      cases hst
    constructor
    · rintro ⟨e, he, hs⟩
      exact ⟨e, List.mem_append_right _ he, hs⟩
    · rintro ⟨e, he, hs⟩
      rcases List.mem_append.1 he with he | he
      · exact absurd ⟨e, he, hs⟩ hno
      · exact ⟨e, he, hs⟩
  · have hf : st.1 = false := by simpa using hst
    obtain ⟨e, he, hs⟩ := g1.1 hf
    have hnow : now = false := edgeLoop_stay _ _ _ h2 hf
    exact ⟨fun _ => ⟨e, List.mem_append_left _ he, hs⟩, fun _ => hnow⟩

/-- Two triangles (closed polygons), one moving towards the other: the hypothesis of `C60_polygons` can be met with either answer. -/
example : arePolygonsIntersecting (K := ℚ) (fun _ => 1) [(0, 0), (1, 0), (0, 1), (0, 0)] [(3, 0), (4, 0), (3, 1), (3, 0)] (0, 1) = .ok (false, false) ∧
    arePolygonsIntersecting (K := ℚ) (fun _ => 1) [(0, 0), (1, 0), (0, 1), (0, 0)] [(3, 0), (4, 0), (3, 1), (3, 0)] (3, 0) = .ok (false, true) := by
  decide +kernel

/-- **C60 is violated** for rotated rectangles: the point is rotated in the wrong direction, so that a corner of a rectangle is reported as outside of the same rectangle
(length 4, width 2, angle with cosine 4/5). -/
theorem C60_rotated_violated : ∃ q ∈ rectCorners (K := ℚ) (0, 0) 4 2 (4 / 5) (3 / 5) false, pointInRotated q (0, 0) 4 2 (4 / 5) (3 / 5) = false := by
  decide +kernel

/-- For rectangles along the axes (angle 0) the test is exact. -/
theorem C60_rotated_partial (q center : K × K) (length width : K) : pointInRotated q center length width 1 0 = true ↔
    |q.1 - center.1| ≤ length / 2 ∧ |q.2 - center.2| ≤ width / 2 := by
  unfold pointInRotated pointInRectangle
  simp only [one_mul, zero_mul, sub_zero, zero_add, decide_eq_true_eq, abs_le, neg_div]
  tauto

/-- The points of a rectangle that are tried: the corners, the midpoints of the edges and the center, rotated by the angle around the center. -/
theorem C60_corners (center : K × K) (length width c s : K) (q : K × K) : q ∈ rectCorners center length width c s true ↔
    ∃ a ∈ ([-1, 0, 1] : List K), ∃ b ∈ ([-1, 0, 1] : List K), q = (center.1 + c * (a * (length / 2)) - s * (b * (width / 2)), center.2 + s * (a * (length / 2)) + c * (b * (width / 2))) := by
  constructor
  · intro h
    simp only [rectCorners, if_true, List.mem_map, List.mem_append, List.mem_cons, List.not_mem_nil, or_false] at h
    obtain ⟨v, hv, rfl⟩ := h
    rcases hv with (rfl | rfl | rfl | rfl) | (rfl | rfl | rfl | rfl | rfl)
    · exact ⟨-1, by simp, -1, by simp, Prod.ext (by simp only; ring) (by simp only; ring)⟩
    · exact ⟨-1, by simp, 1, by simp, Prod.ext (by simp only; ring) (by simp only; ring)⟩
    · exact ⟨1, by simp, 1, by simp, Prod.ext (by simp only; ring) (by simp only; ring)⟩
    · exact ⟨1, by simp, -1, by simp, Prod.ext (by simp only; ring) (by simp only; ring)⟩
    · exact ⟨0, by simp, 0, by simp, Prod.ext (by simp only; ring) (by simp only; ring)⟩
    · exact ⟨-1, by simp, 0, by simp, Prod.ext (by simp only; ring) (by simp only; ring)⟩
    · exact ⟨1, by simp, 0, by simp, Prod.ext (by simp only; ring) (by simp only; ring)⟩
    · exact ⟨0, by simp, -1, by simp, Prod.ext (by simp only; ring) (by simp only; ring)⟩
    · exact ⟨0, by simp, 1, by simp, Prod.ext (by simp only; ring) (by simp only; ring)⟩
  · rintro ⟨a, ha, b, hb, rfl⟩
    simp only [rectCorners, if_true, List.mem_map]
    refine ⟨(a * (length / 2), b * (width / 2)), ?_, Prod.ext (by simp only; ring) (by simp only; ring)⟩
    simp only [List.mem_cons, List.not_mem_nil, or_false] at ha hb
    rcases ha with rfl | rfl | rfl <;> rcases hb with rfl | rfl | rfl <;> simp

/-- Two rectangles along the axes are reported to intersect exactly if one of these nine points of one of them, whichever it is, lies in the other. -/
theorem C60_intersect_partial (p q : K × K) (l w l' w' : K) : rotatedIntersect (p, l, w, 1, 0) (q, l', w', 1, 0) = true ↔
    ∃ a ∈ ([-1, 0, 1] : List K), ∃ b ∈ ([-1, 0, 1] : List K),
      (|p.1 + a * (l / 2) - q.1| ≤ l' / 2 ∧ |p.2 + b * (w / 2) - q.2| ≤ w' / 2) ∨ (|q.1 + a * (l' / 2) - p.1| ≤ l / 2 ∧ |q.2 + b * (w' / 2) - p.2| ≤ w / 2) := by
  have one : ∀ (p q : K × K) (l w l' w' : K), hasCornerInside (p, l, w, 1, 0) (q, l', w', 1, 0) = true ↔
      ∃ a ∈ ([-1, 0, 1] : List K), ∃ b ∈ ([-1, 0, 1] : List K), |p.1 + a * (l / 2) - q.1| ≤ l' / 2 ∧ |p.2 + b * (w / 2) - q.2| ≤ w' / 2 := by
    intro p q l w l' w'
    simp only [hasCornerInside, List.any_eq_true, C60_rotated_partial]
    constructor
    · rintro ⟨r, hr, h⟩
      obtain ⟨a, ha, b, hb, rfl⟩ := (C60_corners _ _ _ _ _ _).1 hr
      exact ⟨a, ha, b, hb, by simpa using h⟩
    · rintro ⟨a, ha, b, hb, h⟩
      exact ⟨_, (C60_corners _ _ _ _ _ _).2 ⟨a, ha, b, hb, rfl⟩, by simpa using h⟩
  unfold rotatedIntersect
  rw [Bool.or_eq_true, one, one]
  constructor
  · rintro (⟨a, ha, b, hb, h⟩ | ⟨a, ha, b, hb, h⟩)
    · exact ⟨a, ha, b, hb, .inl h⟩
    · exact ⟨a, ha, b, hb, .inr h⟩
  · rintro ⟨a, ha, b, hb, h | h⟩
    · exact .inl ⟨a, ha, b, hb, h⟩
    · exact .inr ⟨a, ha, b, hb, h⟩

/-- **C60 is violated** for the intersection of rectangles: a horizontal and a vertical bar that cross are reported as not intersecting, since no corner, midpoint or center of one
lies in the other. -/
theorem C60_crossing_violated : rotatedIntersect (K := ℚ) ((0, 0), 10, 1, 1, 0) ((3, 2), 1, 10, 1, 0) = false ∧
    pointInRotated (K := ℚ) (3, 0) (0, 0) 10 1 1 0 = true ∧ pointInRotated (K := ℚ) (3, 0) (3, 2) 1 10 1 0 = true := by
  decide +kernel

/-! ### Concrete cases -/

example : dedupBy (fun (p : Nat × Nat) => p.1) [(1, 1), (2, 5), (1, 2), (3, 0), (2, 2)] = [(1, 1), (2, 5), (3, 0)] := by decide
example : nearSplit 17 5 = some [4, 4, 3, 3, 3] ∧ nearSplit (-17) 5 = some [-3, -3, -3, -4, -4] ∧ nearSplitSize 17 4 = some [4, 4, 3, 3, 3] := by decide +kernel
example : wrapToPi (3 : ℚ) 10 = -2 ∧ wrapToPi (3 : ℚ) 3 = -3 := by decide +kernel
example : sampleRect (K := ℚ) [0, 5] [2, 5] [1 / 2, 1 / 3] = [1, 5] := by decide +kernel

end Verif.Props
