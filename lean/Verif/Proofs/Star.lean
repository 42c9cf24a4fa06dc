import Verif.Spec.StarSolver
import Verif.Proofs.Basic
import Mathlib.Tactic.Ring
import Mathlib.Tactic.Linarith
import Mathlib.Algebra.BigOperators.Ring.Finset
import Mathlib.Algebra.Order.BigOperators.Group.Finset

/-! Helper lemmas on star sets. -/

set_option autoImplicit false
set_option linter.unusedSectionVars false

namespace Verif.Stars

open Finset

theorem mapM_range_ok {β : Type} (f : Nat → Except String β) (n : Nat) (r : List β) :
    (List.range n).mapM f = .ok r ↔ r.length = n ∧ ∀ i < n, ∃ y, r[i]? = some y ∧ f i = .ok y := by
  rw [mapM_ok_iff]
  constructor
  · intro h
    have hl := h.length_eq
    rw [List.length_range] at hl
    refine ⟨hl.symm, fun i hi => ?_⟩
    have h1 : i < r.length := by omega
    refine ⟨r[i], by simp [h1], ?_⟩
    have := (List.forall₂_iff_get.1 h).2 i (by simpa using hi) h1
    simpa using this
  · rintro ⟨hl, h⟩
    rw [List.forall₂_iff_get]
    refine ⟨by simp [hl], fun i h1 h2 => ?_⟩
    obtain ⟨y, hy, hf⟩ := h i (by simpa using h1)
    rw [List.getElem?_eq_getElem h2] at hy
    injection hy with hy
    simp [hf, ← hy]

variable {K : Type} [Field K] [LinearOrder K]

theorem new_ok_iff (c : Vec K) (b C : Mat K) (g : Vec K) (s : StarSet K) : new c b C g = .ok s ↔
    (b.rows = 0 ∨ b.cols = c.len) ∧ C.cols = b.rows ∧ g.len = C.rows ∧ s = ⟨c, b, C, g⟩ := by
  unfold new
  split
  · next h => simp; tauto
  · next h =>
    split
    · next h2 => simp; tauto
    · next h2 =>
      split
      · next h3 => simp; tauto
      · next h3 => simp only [Except.ok.injEq]; constructor
                   · intro e; subst e; refine ⟨by tauto, by tauto, by tauto, rfl⟩
                   · rintro ⟨_, _, _, e⟩; exact e.symm

theorem built_iff (s : StarSet K) : Built s ↔ (s.basis.rows = 0 ∨ s.basis.cols = s.center.len) ∧ s.C.cols = s.basis.rows ∧ s.g.len = s.C.rows := by
  unfold Built; rw [new_ok_iff]; simp

/-- Affine maps commute with affine combinations. -/
theorem affine_comb (n m : Nat) (M : Nat → Nat → K) (b : Nat → K) (c : Nat → K) (v : Nat → Nat → K) (α : Nat → K) (x : Nat → K)
    (hx : ∀ k < n, x k = c k + ∑ j ∈ range m, α j * v j k) (d : Nat) :
    affine n M b x d = affine n M b c d + ∑ j ∈ range m, α j * (affine n M b (fun k => c k + v j k) d - affine n M b c d) := by
  have e : ∀ j, affine n M b (fun k => c k + v j k) d - affine n M b c d = ∑ k ∈ range n, M d k * v j k := by
    intro j
    unfold affine
    rw [add_sub_add_left_eq_sub, ← sum_sub_distrib]
    exact sum_congr rfl (fun k _ => by ring)
  simp only [e]
  have e2 : ∑ k ∈ range n, M d k * x k = ∑ k ∈ range n, (M d k * c k + ∑ j ∈ range m, α j * (M d k * v j k)) := by
    refine sum_congr rfl (fun k hk => ?_)
    rw [hx k (mem_range.1 hk), mul_add, mul_sum]
    congr 1
    exact sum_congr rfl (fun j _ => by ring)
  unfold affine
  rw [e2, sum_add_distrib, sum_comm]
  simp only [mul_sum]
  ring

theorem ofRows_at (n : Nat) (rows : List (Vec K)) (i j : Nat) (r : Vec K) (h : rows[i]? = some r) : (ofRows n rows).at_ i j = r.at_ j := by
  simp [ofRows, h]

theorem mapM_range_ex {β : Type} (f : Nat → Except String β) (P : Nat → β → Prop) (n : Nat) (h : ∀ i < n, ∃ y, f i = .ok y ∧ P i y) :
    ∃ r, (List.range n).mapM f = .ok r ∧ r.length = n ∧ ∀ i < n, ∃ y, r[i]? = some y ∧ P i y := by
  have h' : ∀ i : Fin n, ∃ y, f i = .ok y ∧ P i y := fun i => h i i.2
  choose y hy hP using h'
  refine ⟨List.ofFn y, (mapM_range_ok _ _ _).2 ⟨by simp, fun i hi => ⟨y ⟨i, hi⟩, by simp [List.getElem?_ofFn, hi], hy ⟨i, hi⟩⟩⟩, by simp, fun i hi => ⟨y ⟨i, hi⟩, by simp [List.getElem?_ofFn, hi], hP ⟨i, hi⟩⟩⟩

/-- The star set whose center is the image of the center, and whose basis vectors are the differences of images, is the image. -/
theorem image_iff (n m p : Nat) (M : Nat → Nat → K) (b c c' : Nat → K) (v v' C : Nat → Nat → K) (g y : Nat → K)
    (hc : ∀ d < n, c' d = affine n M b c d)
    (hv : ∀ j < m, ∀ d < n, v' j d = affine n M b (fun k => c k + v j k) d - affine n M b c d) :
    Point n m p c' v' C g y ↔ ∃ x, Point n m p c v C g x ∧ ∀ d < n, y d = affine n M b x d := by
  have key : ∀ α : Nat → K, ∀ d < n, c' d + ∑ j ∈ range m, α j * v' j d =
      affine n M b (fun k => c k + ∑ j ∈ range m, α j * v j k) d := by
    intro α d hd
    rw [affine_comb n m M b c v α _ (fun k _ => rfl), hc d hd]
    congr 1
    exact sum_congr rfl (fun j hj => by rw [hv j (mem_range.1 hj) d hd])
  constructor
  · rintro ⟨α, hα, hy⟩
    exact ⟨_, ⟨α, hα, fun d _ => rfl⟩, fun d hd => by rw [hy d hd, key α d hd]⟩
  · rintro ⟨x, ⟨α, hα, hx⟩, hy⟩
    refine ⟨α, hα, fun d hd => ?_⟩
    rw [hy d hd, key α d hd]
    unfold affine
    congr 1
    exact sum_congr rfl (fun k hk => by rw [hx k (mem_range.1 hk)])

theorem newVec_ok (f : Vec K → Except String (Vec K)) (s : StarSet K) (center : Vec K) (i : Nat) (x y : Vec K) (hl : s.center.len = s.basis.cols)
    (hx : x = ⟨s.center.len, fun k => s.center.at_ k + s.basis.at_ i k⟩) (hf : f x = .ok y) (hy : y.len = s.center.len) (hc : center.len = s.center.len) :
    newVec f s center i = .ok ⟨s.center.len, fun k => y.at_ k - center.at_ k⟩ := by
  subst hx
  unfold newVec vadd
  rw [if_pos (by exact hl)]
  simp only [Except.bind, Mat.row]
  rw [hf]
  simp only [vsub]
  rw [if_pos (by rw [hy, hc])]
  simp [hy, ← hl]

theorem bind_ok {α β ε : Type} {x : Except ε α} {f : α → Except ε β} {b : β} (h : x.bind f = .ok b) : ∃ a, x = .ok a ∧ f a = .ok b :=
  (bind_ok_iff x f b).1 h

theorem diffRows_ok (n : Nat) (xs cs : List (K × Vec K)) (hl : xs.length = cs.length)
    (hx : ∀ (k : Nat) (x : K × Vec K), xs[k]? = some x → x.2.len = n) (hc : ∀ (k : Nat) (x : K × Vec K), cs[k]? = some x → x.2.len = n) :
    ∃ ds, diffRows xs cs = .ok ds ∧ ds.length = xs.length ∧
      ∀ k < xs.length, ∃ v, ds[k]? = some v ∧ v.len = n ∧ ∀ x c, xs[k]? = some x → cs[k]? = some c → ∀ d, v.at_ d = x.2.at_ d - c.2.at_ d := by
  refine mapM_range_ex _ (fun k (v : Vec K) => v.len = n ∧ ∀ x c, xs[k]? = some x → cs[k]? = some c → ∀ d, v.at_ d = x.2.at_ d - c.2.at_ d) _ ?_
  intro k hk
  have hk' : k < cs.length := by omega
  have e1 : xs[k]? = some xs[k] := by simp [hk]
  have e2 : cs[k]? = some cs[k] := by simp [hk']
  rw [e1, e2]
  refine ⟨⟨xs[k].2.len, fun i => xs[k].2.at_ i - cs[k].2.at_ i⟩, ?_, hx _ _ e1, ?_⟩
  · simp only [vsub]; rw [if_pos (by rw [hx _ _ e1, hc _ _ e2])]
  · intro x c hx' hc' d
    injection hx' with hx'
    injection hc' with hc'
    subst hx'; subst hc'; rfl

theorem linearEntry_ok (s : StarSet K) (hs : Built s) (centers : List (K × Vec K)) (diffs : List (List (Vec K))) (i : Nat) (c : K × Vec K)
    (hc : centers[i]? = some c) (hcl : c.2.len = s.center.len) (hd : diffs.length = s.basis.rows)
    (hds : ∀ j < s.basis.rows, ∃ ds v, diffs[j]? = some ds ∧ ds[i]? = some v ∧ v.len = s.center.len) :
    ∃ st : StarSet K, linearEntry s centers diffs i = .ok (c.1, st) ∧ st.center = c.2 ∧ st.basis.rows = s.basis.rows ∧ st.C = s.C ∧ st.g = s.g ∧
      ∀ (j : Nat) (ds : List (Vec K)) (v : Vec K), diffs[j]? = some ds → ds[i]? = some v → ∀ d, st.basis.at_ j d = v.at_ d := by
  obtain ⟨h1, h2, h3⟩ := (built_iff s).1 hs
  have hrows : ∃ rows, diffs.mapM (nthVec i) = .ok rows ∧ rows.length = diffs.length ∧ (∀ r ∈ rows, r.len = c.2.len) ∧
      ∀ (j : Nat) (ds : List (Vec K)) (v : Vec K), diffs[j]? = some ds → ds[i]? = some v → rows[j]? = some v := by
    rw [← hd] at hds
    clear h2 h1 hd
    induction diffs with
    | nil => exact ⟨[], rfl, rfl, by simp, by simp⟩
    | cons e es ih =>
      obtain ⟨ds, v, e1, e2, e3⟩ := hds 0 (by simp)
      simp at e1; subst e1
      obtain ⟨rows, g1, g2, g3, g4⟩ := ih (fun j hj => by
        obtain ⟨ds, v, a, b, c⟩ := hds (j + 1) (by simp; omega)
        exact ⟨ds, v, by simpa using a, b, c⟩)
      refine ⟨v :: rows, ?_, by simp [g2], ?_, ?_⟩
      · rw [List.mapM_cons]
        simp only [nthVec, e2]
        show ((List.mapM (nthVec i) es).bind fun r => Except.ok (v :: r)) = _
        rw [g1]; rfl
      · intro r hr
        rcases List.mem_cons.1 hr with rfl | hr
        · rw [e3, hcl]
        · exact g3 r hr
      · intro j ds' v' hj hv
        cases j with
        | zero => simp at hj; subst hj; rw [e2] at hv; injection hv with hv; simp [hv]
        | succ j => exact g4 j ds' v' (by simpa using hj) hv
  obtain ⟨rows, g1, g2, g3, g4⟩ := hrows
  refine ⟨⟨c.2, ofRows c.2.len rows, s.C, s.g⟩, ?_, rfl, by simp [ofRows, g2, hd], rfl, rfl, ?_⟩
  · unfold linearEntry
    rw [hc]
    dsimp only
    rw [g1]
    simp only [Except.bind]
    rw [if_pos (by rw [List.all_eq_true]; intro r hr; simpa using g3 r hr)]
    unfold superposition
    rw [if_pos (by simp [ofRows, g2, hd])]
    have : new c.2 (ofRows c.2.len rows) s.C s.g = .ok ⟨c.2, ofRows c.2.len rows, s.C, s.g⟩ := by
      rw [new_ok_iff]
      exact ⟨Or.inr rfl, by simp [ofRows, g2, hd, h2], h3, rfl⟩
    rw [this]; rfl
  · intro j ds v hj hv d
    exact ofRows_at _ _ _ _ _ (g4 j ds v hj hv)

section
variable [IsStrictOrderedRing K]

theorem getMaxMin_spec (lp : Bool → Vec K → Mat K → Vec K → LPRes K) (hlp : LPCorrect lp) (s : StarSet K) (hs : Built s) (i : Nat)
    (hi : i < s.center.len) (r : K × K) (h : getMaxMin lp s i = .ok r) :
    (∀ x, InStar s x → r.1 ≤ x i ∧ x i ≤ r.2) ∧ (∃ x, InStar s x ∧ x i = r.1) ∧ (∃ x, InStar s x ∧ x i = r.2) := by
  obtain ⟨h1, h2, h3⟩ := (built_iff s).1 hs
  unfold getMaxMin at h
  obtain ⟨co, hco, h⟩ := bind_ok h
  obtain ⟨r1, hr1, h⟩ := bind_ok h
  obtain ⟨lo, hlo, h⟩ := bind_ok h
  obtain ⟨r2, hr2, h⟩ := bind_ok h
  obtain ⟨hi', hhi, h⟩ := bind_ok h
  injection h with h; subst h
  unfold Mat.col at hco
  split at hco
  swap
  · cases hco
  injection hco with hco; subst hco
  unfold callLP at hr1 hr2
  split at hr1
  swap
  · cases hr1
  next hsh =>
  split at hr2
  swap
  · cases hr2
  next hsh' =>
  injection hr1 with hr1
  injection hr2 with hr2
  unfold dotRes at hlo hhi
  split at hlo
  swap
  · cases hlo
  next x hx =>
  split at hhi
  swap
  · cases hhi
  next x' hx' =>
  rw [← hr1] at hx
  rw [← hr2] at hx'
  obtain ⟨l1, ⟨f1, -⟩, o1⟩ := hlp.sol _ _ _ _ _ hsh.1 hsh.2 hx
  obtain ⟨l2, ⟨f2, -⟩, o2⟩ := hlp.sol _ _ _ _ _ hsh'.1 hsh'.2 hx'
  unfold dot at hlo hhi
  rw [if_pos l1.symm] at hlo
  rw [if_pos (by simpa [vneg] using l2.symm)] at hhi
  injection hlo with hlo
  injection hhi with hhi
  dsimp only at hlo hhi
  rw [h2] at f1 f2
  refine ⟨?_, ?_, ?_⟩
  · rintro y ⟨α, hα, hy⟩
    rw [hy i hi]
    have a1 := o1 α ⟨by rw [h2]; exact hα, by simp⟩
    have a2 := o2 α ⟨by rw [h2]; exact hα, by simp⟩
    simp only [vneg, neg_mul, one_mul, sum_neg_distrib] at a2
    dsimp only at a1
    have e : ∑ j ∈ range s.basis.rows, α j * s.basis.at_ j i = ∑ j ∈ range s.basis.rows, s.basis.at_ j i * α j :=
      sum_congr rfl (fun j _ => mul_comm _ _)
    constructor
    · rw [← hlo, e]; linarith
    · rw [← hhi, e]; linarith
  · refine ⟨fun d => s.center.at_ d + ∑ j ∈ range s.basis.rows, x.at_ j * s.basis.at_ j d, ⟨x.at_, f1, fun d _ => rfl⟩, ?_⟩
    dsimp only
    rw [← hlo]
    congr 1
    exact sum_congr rfl (fun j _ => mul_comm _ _)
  · refine ⟨fun d => s.center.at_ d + ∑ j ∈ range s.basis.rows, x'.at_ j * s.basis.at_ j d, ⟨x'.at_, f2, fun d _ => rfl⟩, ?_⟩
    dsimp only
    rw [← hhi]
    congr 1
    exact sum_congr rfl (fun j _ => mul_comm _ _)

end

theorem sat_congr (p m : Nat) (C : Nat → Nat → K) (g α β : Nat → K) (h : ∀ j < m, α j = β j) : Sat p m C g α ↔ Sat p m C g β := by
  have e : ∀ i, ∑ j ∈ range m, C i j * α j = ∑ j ∈ range m, C i j * β j := fun i => sum_congr rfl (fun j hj => by rw [h j (mem_range.1 hj)])
  simp [Sat, e]

theorem fromPoly_spec (A : Mat K) (b : Vec K) (s : StarSet K) (h : fromPoly A b = .ok s) :
    Built s ∧ s.center.len = A.cols ∧ s.basis.rows = A.cols ∧ ∀ x, InStar s x ↔ Sat A.rows A.cols A.at_ b.at_ x := by
  unfold fromPoly at h
  split at h
  · cases h
  split at h
  · cases h
  have hb := h
  rw [new_ok_iff] at h
  obtain ⟨-, -, -, rfl⟩ := h
  refine ⟨hb, rfl, rfl, fun x => ?_⟩
  unfold InStar Point
  dsimp only
  constructor
  · rintro ⟨α, hα, hx⟩
    rw [sat_congr _ _ _ _ x α]
    · exact hα
    · intro d hd
      rw [hx d hd]
      simp [hd]
  · intro hx
    refine ⟨x, hx, fun d hd => by simp [hd]⟩

theorem combineDim_spec (lp : Bool → Vec K → Mat K → Vec K → LPRes K) (i : Nat) (ss : List (StarSet K)) (acc r : Option (K × K))
    (h : combineDim lp i ss acc = .ok r) (hne : ss ≠ [] ∨ acc ≠ none) :
    ∃ b, r = some b ∧ (∀ s ∈ ss, ∃ q, getMaxMin lp s i = .ok q ∧ b.1 ≤ q.1 ∧ q.2 ≤ b.2) ∧ (∀ a, acc = some a → b.1 ≤ a.1 ∧ a.2 ≤ b.2) ∧
      ((∃ a, acc = some a ∧ b.1 = a.1) ∨ ∃ s ∈ ss, ∃ q, getMaxMin lp s i = .ok q ∧ b.1 = q.1) ∧
      ((∃ a, acc = some a ∧ b.2 = a.2) ∨ ∃ s ∈ ss, ∃ q, getMaxMin lp s i = .ok q ∧ b.2 = q.2) := by
  induction ss generalizing acc with
  | nil =>
    injection h with h
    cases acc with
    | none => simp at hne
    | some a => subst h; exact ⟨a, rfl, by simp, by rintro _ ⟨⟩; exact ⟨le_refl _, le_refl _⟩, Or.inl ⟨a, rfl, rfl⟩, Or.inl ⟨a, rfl, rfl⟩⟩
  | cons s ss ih =>
    unfold combineDim at h
    obtain ⟨q, hq, h⟩ := bind_ok h
    obtain ⟨b, hb, h1, h2, h3, h4⟩ := ih _ h (Or.inr (by cases acc <;> simp))
    have hs : (b.1 ≤ q.1 ∧ q.2 ≤ b.2) ∧ ∀ a, acc = some a → b.1 ≤ a.1 ∧ a.2 ≤ b.2 := by
      cases acc with
      | none => exact ⟨h2 q rfl, by simp⟩
      | some a =>
        have := h2 _ rfl
        dsimp only at this
        constructor
        · split at this <;> split at this <;> constructor <;> first | exact this.1 | exact this.2 | (apply le_trans this.1; apply not_lt.1; assumption) | (refine le_trans ?_ this.2; apply not_lt.1; assumption)
        · rintro _ ⟨⟩
          split at this <;> split at this <;> constructor <;> first | exact this.1 | exact this.2 | (apply le_trans this.1; apply le_of_lt; assumption) | (refine le_trans ?_ this.2; apply le_of_lt; assumption)
    refine ⟨b, hb, ?_, hs.2, ?_, ?_⟩
    · intro s' hs'
      rcases List.mem_cons.1 hs' with rfl | hs'
      · exact ⟨q, hq, hs.1⟩
      · exact h1 s' hs'
    · rcases h3 with ⟨a, ha, e⟩ | ⟨s', hs', q', hq', e⟩
      · cases acc with
        | none => injection ha with ha; subst ha; exact Or.inr ⟨s, by simp, q, hq, e⟩
        | some a' =>
          injection ha with ha; subst ha
          dsimp only at e
          split at e
          · exact Or.inr ⟨s, by simp, q, hq, e⟩
          · exact Or.inl ⟨a', rfl, e⟩
      · exact Or.inr ⟨s', by simp [hs'], q', hq', e⟩
    · rcases h4 with ⟨a, ha, e⟩ | ⟨s', hs', q', hq', e⟩
      · cases acc with
        | none => injection ha with ha; subst ha; exact Or.inr ⟨s, by simp, q, hq, e⟩
        | some a' =>
          injection ha with ha; subst ha
          dsimp only at e
          split at e
          · exact Or.inr ⟨s, by simp, q, hq, e⟩
          · exact Or.inl ⟨a', rfl, e⟩
      · exact Or.inr ⟨s', by simp [hs'], q', hq', e⟩

/-- What `intersection_poly` computes: the new inequalities use the transposed basis. -/
theorem intersectionPoly_spec (s s' : StarSet K) (hs : Built s) (H : Mat K) (rhs : Vec K) (h : intersectionPoly s H rhs = .ok s') :
    Built s' ∧ s'.center = s.center ∧ s'.basis = s.basis ∧ s.basis.rows = s.basis.cols ∧ H.cols = s.basis.rows ∧ H.cols = s.center.len ∧
    ∀ α, Sat s'.C.rows s'.basis.rows s'.C.at_ s'.g.at_ α ↔ Sat s.C.rows s.basis.rows s.C.at_ s.g.at_ α ∧
      ∀ i < H.rows, ∑ j ∈ range s.basis.rows, (∑ k ∈ range H.cols, H.at_ i k * s.basis.at_ k j) * α j ≤ rhs.at_ i - ∑ k ∈ range H.cols, H.at_ i k * s.center.at_ k := by
  obtain ⟨h1, h2, h3⟩ := (built_iff s).1 hs
  unfold intersectionPoly at h
  split at h
  · cases h
  split at h
  · cases h
  split at h
  · cases h
  next hr0 hc0 hrh =>
  obtain ⟨nC, e1, h⟩ := bind_ok h
  obtain ⟨cC, e2, h⟩ := bind_ok h
  obtain ⟨hc, e3, h⟩ := bind_ok h
  obtain ⟨nG, e4, h⟩ := bind_ok h
  injection h with h; subst h
  unfold matmul at e1
  split at e1
  swap
  · cases e1
  next g1 =>
  injection e1 with e1; subst e1
  unfold vstack at e2
  split at e2
  swap
  · cases e2
  next g2 =>
  injection e2 with e2; subst e2
  unfold matvec at e3
  split at e3
  swap
  · cases e3
  next g3 =>
  injection e3 with e3; subst e3
  unfold vsub at e4
  split at e4
  swap
  · cases e4
  next g4 =>
  injection e4 with e4; subst e4
  dsimp only at g1 g2 g3 g4
  refine ⟨?_, rfl, rfl, by omega, g1, g3, ?_⟩
  · rw [built_iff]
    refine ⟨h1, h2, ?_⟩
    simp only [append]; omega
  · intro α
    unfold Sat
    dsimp only [append]
    constructor
    · intro h
      refine ⟨fun i hi => ?_, fun i hi => ?_⟩
      · have := h i (by omega)
        rw [if_pos (by omega)] at this
        simpa [hi] using this
      · have := h (s.C.rows + i) (by omega)
        rw [if_neg (by omega)] at this
        have e : s.C.rows + i - s.g.len = i := by omega
        rw [e] at this
        simpa using this
    · rintro ⟨ha, hb⟩ i hi
      by_cases hlt : i < s.C.rows
      · rw [if_pos (by omega)]
        simpa [hlt] using ha i hlt
      · rw [if_neg (by omega)]
        have e : i - s.g.len = i - s.C.rows := by omega
        rw [e]
        simpa [hlt] using hb (i - s.C.rows) (by omega)

/-- For a symmetric basis the new inequality says that the point is in the half space. -/
theorem half_symm (n : Nat) (H c α : Nat → K) (v : Nat → Nat → K) (hsym : ∀ i < n, ∀ j < n, v i j = v j i) (x : Nat → K)
    (hx : ∀ d < n, x d = c d + ∑ j ∈ range n, α j * v j d) :
    ∑ j ∈ range n, (∑ k ∈ range n, H k * v k j) * α j + ∑ k ∈ range n, H k * c k = ∑ d ∈ range n, H d * x d := by
  have e1 : ∑ d ∈ range n, H d * x d = ∑ d ∈ range n, (H d * c d + ∑ j ∈ range n, H d * (α j * v j d)) :=
    sum_congr rfl (fun d hd => by rw [hx d (mem_range.1 hd), mul_add, mul_sum])
  rw [e1, sum_add_distrib, add_comm]
  congr 1
  rw [sum_comm]
  refine sum_congr rfl (fun j hj => ?_)
  rw [sum_mul]
  exact sum_congr rfl (fun k hk => by rw [hsym k (mem_range.1 hk) j (mem_range.1 hj)]; ring)

theorem holds_iff (s : StarSet K) (n m : Nat) (x α : Nat → K) : (∀ l ∈ pointEqs s n x ++ predIneqs s, l.Holds m α) ↔
    Sat s.C.rows m s.C.at_ s.g.at_ α ∧ ∀ d < n, x d = s.center.at_ d + ∑ j ∈ range m, α j * s.basis.at_ j d := by
  simp only [List.mem_append, or_imp, forall_and, pointEqs, predIneqs, List.mem_map, List.mem_range, forall_exists_index, and_imp, forall_apply_eq_imp_iff₂,
    Lin.Holds, if_true, Bool.false_eq_true, if_false, zero_add]
  rw [and_comm]
  refine and_congr Iff.rfl (forall_congr' fun d => forall_congr' fun _ => ?_)
  rw [eq_comm]
  simp only [mul_comm]

theorem pcaRound_spec (opt : StarSet K → Mat K → List (Vec K) → Option (Fit K)) (hopt : OptCorrect opt) (s st : StarSet K)
    (basis : Mat K) (pts : List (Vec K)) (h : pcaRound opt s basis pts = .ok (some st)) (x : Vec K) (hx : x ∈ pts) : InStar st x.at_ := by
  unfold pcaRound at h
  split at h
  · cases h
  split at h
  · cases h
  split at h
  · cases h
  split at h
  · cases h
  next f hf =>
  obtain ⟨st', hst, e⟩ := (map_ok_iff _ _ _).1 h
  injection e with e; subst e
  rw [new_ok_iff] at hst
  obtain ⟨-, hm, -, rfl⟩ := hst
  obtain ⟨p, hp, rfl⟩ := List.mem_iff_getElem.1 hx
  obtain ⟨h1, h2⟩ := hopt _ _ _ _ hf p pts[p] (by simp [hp])
  rw [hm] at h1 h2
  exact ⟨f.α p, fun i hi => by dsimp only; rw [mul_comm (s.g.at_ i)]; exact h2 i hi, fun d hd => (h1 d hd).symm⟩

end Verif.Stars
