import Verif.Model.Verifier
import Verif.Proofs.Basic
import Verif.Proofs.Rect

/-! Lemmas on the tube of a node with several initial rectangles. -/

set_option autoImplicit false
set_option linter.unusedSectionVars false

namespace Verif.Proofs.Ver

open Verif.Ver
open Verif.Rect (Box rowMin rowMax combineRect)
open Verif.Proofs.Rect (Le)

variable {K : Type} [LinearOrder K]

/-- The rectangle `a` is part of `b`, by their corners. -/
def BoxLe (a b : Box K) : Prop := Le b.1 a.1 ∧ Le a.2 b.2

theorem BoxLe.refl (a : Box K) : BoxLe a a := ⟨Le.refl _, Le.refl _⟩

theorem BoxLe.trans {a b c : Box K} (h : BoxLe a b) (h' : BoxLe b c) : BoxLe a c := ⟨Le.trans h'.1 h.1, Le.trans h.2 h'.2⟩

theorem rowMin_le {a b : List K} (h : a.length = b.length) : Le (rowMin a b) a ∧ Le (rowMin a b) b := by
  induction a generalizing b with
  | nil => cases b with
    | nil => exact ⟨.nil, .nil⟩
    | cons _ _ => cases h
  | cons x a ih => cases b with
    | nil => cases h
    | cons y b =>
      obtain ⟨h1, h2⟩ := ih (by simpa using h)
      exact ⟨.cons (min_le_left _ _) h1, .cons (min_le_right _ _) h2⟩

theorem le_rowMax {a b : List K} (h : a.length = b.length) : Le a (rowMax a b) ∧ Le b (rowMax a b) := by
  induction a generalizing b with
  | nil => cases b with
    | nil => exact ⟨.nil, .nil⟩
    | cons _ _ => cases h
  | cons x a ih => cases b with
    | nil => cases h
    | cons y b =>
      obtain ⟨h1, h2⟩ := ih (by simpa using h)
      exact ⟨.cons (le_max_left _ _) h1, .cons (le_max_right _ _) h2⟩

/-- Both corners have `d` coordinates. -/
def Dim (d : Nat) (b : Box K) : Prop := b.1.length = d ∧ b.2.length = d

theorem joinBox_spec {d : Nat} {a b : Box K} (ha : Dim d a) (hb : Dim d b) :
    Dim d (joinBox a b) ∧ BoxLe a (joinBox a b) ∧ BoxLe b (joinBox a b) := by
  obtain ⟨h1, h2⟩ := rowMin_le (ha.1.trans hb.1.symm)
  obtain ⟨h3, h4⟩ := le_rowMax (ha.2.trans hb.2.symm)
  exact ⟨⟨h1.length_eq.trans ha.1, h3.length_eq.symm.trans ha.2⟩, ⟨h1, h3⟩, ⟨h2, h4⟩⟩

theorem joinAt_spec {k : Nat} {t cur t' : Tube K} (hk : k ≤ t.length) (h : joinAt k t cur = .ok t') :
    t'.length = t.length ∧ (∀ i, i < k → t'[i]? = t[i]?) ∧
    ∀ (j : Nat) (s : Seg K), t'[k + j]? = some s → ∃ (a b : Seg K), t[k + j]? = some a ∧ cur[j]? = some b ∧ s = { a with box := joinBox a.box b.box } := by
  unfold joinAt at h
  dsimp only at h
  by_cases hc : (cur.take (t.length - k)).length = t.length - k
  · rw [if_pos hc] at h
    injection h with h
    have hl : (t.take k).length = k := by rw [List.length_take]; omega
    refine ⟨?_, ?_, ?_⟩
    · rw [← h, List.length_append, hl, List.length_zipWith, List.length_drop, hc]; omega
    · intro i hi
      rw [← h, List.getElem?_append_left (by rw [hl]; exact hi), List.getElem?_take_of_lt hi]
    · intro j s hs
      rw [← h, List.getElem?_append_right (by rw [hl]; omega), hl, Nat.add_sub_cancel_left, List.getElem?_zipWith_eq_some] at hs
      obtain ⟨a, b, ha, hb, rfl⟩ := hs
      rw [List.getElem?_drop] at ha
      refine ⟨a, b, ha, ?_, rfl⟩
      rw [List.getElem?_take] at hb
      split at hb
      · exact hb
      · cases hb
  · rw [if_neg hc] at h; cases h

/-- `t'` extends `t`: same length, same times, and each rectangle contains the one of `t`. -/
structure Extends (d : Nat) (t t' : Tube K) : Prop where
  len : t'.length = t.length
  seg : ∀ (i : Nat) (s' : Seg K), t'[i]? = some s' → Dim d s'.box ∧ ∃ s : Seg K, t[i]? = some s ∧ s'.t0 = s.t0 ∧ s'.t1 = s.t1 ∧ BoxLe s.box s'.box

theorem Extends.trans {d : Nat} {t t' t'' : Tube K} (h : Extends d t t') (h' : Extends d t' t'') : Extends d t t'' := by
  refine ⟨h'.len.trans h.len, ?_⟩
  intro i s'' hs
  obtain ⟨hd, s', hs', a1, a2, a3⟩ := h'.seg i s'' hs
  obtain ⟨-, s, hs, b1, b2, b3⟩ := h.seg i s' hs'
  exact ⟨hd, s, hs, a1.trans b1, a2.trans b2, b3.trans a3⟩

theorem combineRect_dim {d : Nat} {l : List (Box K)} {c : Box K} (hl : ∀ r ∈ l, Dim d r) (h : combineRect l = .ok c) : Dim d c := by
  have hf : ∀ (f : K → K → K) (m : List (List K)) (a : List K), a.length = d → (∀ x ∈ m, x.length = d) →
      (m.foldl (List.zipWith f) a).length = d := by
    intro f m
    induction m with
    | nil => intro a ha _; exact ha
    | cons x m ih =>
      intro a ha hm
      refine ih _ ?_ (fun y hy => hm y (List.mem_cons_of_mem _ hy))
      rw [List.length_zipWith, ha, hm x (by simp), min_self]
  cases l with
  | nil => cases h
  | cons r rs =>
    injection h with h; subst h
    obtain ⟨h1, h2⟩ := hl r (by simp)
    refine ⟨hf min _ _ h1 ?_, hf max _ _ h2 ?_⟩
    · intro x hx
      obtain ⟨q, hq, rfl⟩ := List.mem_map.1 hx
      exact (hl q (List.mem_cons_of_mem _ hq)).1
    · intro x hx
      obtain ⟨q, hq, rfl⟩ := List.mem_map.1 hx
      exact (hl q (List.mem_cons_of_mem _ hq)).2

theorem loop_spec {bloat : Box K → Tube K} {segLen d : Nat} (hpos : 0 < segLen)
    (hdim : ∀ c, Dim d c → ∀ s ∈ bloat c, Dim d s.box) :
    ∀ (fuel k : Nat) (rest : List (Box K)) (t t' : Tube K), rest.length ≤ fuel → (∀ r ∈ rest, Dim d r) → (∀ s ∈ t, Dim d s.box) →
      fullTubeLoop bloat segLen fuel k rest (some t) = .ok (some t') →
      Extends d t t' ∧ ∀ (m : Nat) (c : Box K), segLen ∣ m → m < rest.length → combineRect ((rest.drop m).take segLen) = .ok c →
        ∀ (j : Nat) (s : Seg K), t'[k + m + j]? = some s → ∃ s' : Seg K, (bloat c)[j]? = some s' ∧ BoxLe s'.box s.box := by
  have hself : ∀ t : Tube K, (∀ s ∈ t, Dim d s.box) → Extends d t t := fun t ht =>
    ⟨rfl, fun i s hs => ⟨ht s (List.mem_of_getElem? hs), s, hs, rfl, rfl, BoxLe.refl _⟩⟩
  intro fuel
  induction fuel with
  | zero =>
    intro k rest t t' hl hr0 ht h
    injection h with h; injection h with h; subst h
    exact ⟨hself t ht, fun m c _ hm => by omega⟩
  | succ fuel ih =>
    intro k rest t t' hl hr0 ht h
    cases rest with
    | nil =>
      injection h with h; injection h with h; subst h
      exact ⟨hself t ht, fun m c _ hm => by simp at hm⟩
    | cons r rest =>
      unfold fullTubeLoop at h
      obtain ⟨c0, hc0, h⟩ := (bind_ok_iff _ _ _).1 h
      have hd0 : Dim d c0 := combineRect_dim (fun r hr => hr0 r (List.mem_of_mem_take hr)) hc0
      dsimp only at h
      by_cases hk : t.length ≤ k
      · rw [if_pos hk] at h
        injection h with h; injection h with h; subst h
        refine ⟨hself t ht, ?_⟩
        intro m c _ _ _ j s hs
        have := (List.getElem?_eq_some_iff.1 hs).1
        omega
      · rw [if_neg hk] at h
        obtain ⟨t1, ht1, h⟩ := (bind_ok_iff _ _ _).1 h
        obtain ⟨j1, j2, j3⟩ := joinAt_spec (by omega) ht1
        have he1 : Extends d t t1 := by
          refine ⟨j1, ?_⟩
          intro i s hs
          by_cases hi : i < k
          · rw [j2 i hi] at hs
            exact ⟨ht s (List.mem_of_getElem? hs), s, hs, rfl, rfl, BoxLe.refl _⟩
          · obtain ⟨j, rfl⟩ := Nat.exists_eq_add_of_le (Nat.le_of_not_lt hi)
            obtain ⟨a, b, ha, hb, rfl⟩ := j3 j s hs
            obtain ⟨g1, g2, g3⟩ := joinBox_spec (ht a (List.mem_of_getElem? ha)) (hdim c0 hd0 b (List.mem_of_getElem? hb))
            exact ⟨g1, a, ha, rfl, rfl, g2⟩
        have hd1 : ∀ s ∈ t1, Dim d s.box := by
          intro s hs
          obtain ⟨i, hi⟩ := List.getElem?_of_mem hs
          exact (he1.seg i s hi).1
        obtain ⟨e1, e2⟩ := ih (k + segLen) ((r :: rest).drop segLen) t1 t' (by
          rw [List.length_drop]; simp only [List.length_cons] at hl ⊢; omega)
          (fun r hr => hr0 r (List.mem_of_mem_drop hr)) hd1 h
        refine ⟨he1.trans e1, ?_⟩
        intro m c hm hml hc j s hs
        rcases Nat.eq_zero_or_pos m with rfl | hmp
        · rw [List.drop_zero, hc0] at hc
          injection hc with hc; subst hc
          obtain ⟨-, s1, hs1, -, -, hle⟩ := e1.seg _ _ hs
          obtain ⟨a, b, ha, hb, rfl⟩ := j3 j s1 (by simpa using hs1)
          obtain ⟨-, -, g3⟩ := joinBox_spec (ht a (List.mem_of_getElem? ha)) (hdim c0 hd0 b (List.mem_of_getElem? hb))
          exact ⟨b, hb, g3.trans hle⟩
        · have hge : segLen ≤ m := Nat.le_of_dvd hmp hm
          obtain ⟨m', rfl⟩ := Nat.exists_eq_add_of_le hge
          refine e2 m' c ((Nat.dvd_add_right (dvd_refl segLen)).1 hm) ?_ ?_ j s ?_
          · rw [List.length_drop]; omega
          · rw [List.drop_drop]; exact hc
          · rw [Nat.add_assoc k segLen m']; exact hs

theorem loop_some {bloat : Box K → Tube K} {segLen : Nat} : ∀ (fuel k : Nat) (rest : List (Box K)) (t : Tube K) (o : Option (Tube K)),
    fullTubeLoop bloat segLen fuel k rest (some t) = .ok o → ∃ t', o = some t' := by
  intro fuel
  induction fuel with
  | zero => intro k rest t o h; injection h with h; exact ⟨_, h.symm⟩
  | succ fuel ih =>
    intro k rest t o h
    cases rest with
    | nil => injection h with h; exact ⟨_, h.symm⟩
    | cons r rest =>
      unfold fullTubeLoop at h
      obtain ⟨c0, hc0, h⟩ := (bind_ok_iff _ _ _).1 h
      dsimp only at h
      by_cases hk : t.length ≤ k
      · rw [if_pos hk] at h; injection h with h; exact ⟨_, h.symm⟩
      · rw [if_neg hk] at h
        obtain ⟨t1, ht1, h⟩ := (bind_ok_iff _ _ _).1 h
        exact ih _ _ _ _ h

/-- The tube of a node: it has the length and times of the bloating of the first group of initial rectangles, and from rectangle number `k`
on it contains the bloating of the group that begins with initial rectangle number `k`. -/
theorem fullTube_spec {bloat : Box K → Tube K} {segLen d : Nat} (hdim : ∀ c, Dim d c → ∀ s ∈ bloat c, Dim d s.box) {inits : List (Box K)}
    {t : Tube K} (hr0 : ∀ r ∈ inits, Dim d r)
    (h : fullTube bloat segLen inits = .ok t) :
    (∃ c, combineRect (inits.take segLen) = .ok c ∧ Extends d (bloat c) t) ∧
    ∀ (k : Nat) (c : Box K), segLen ∣ k → k < inits.length → combineRect ((inits.drop k).take segLen) = .ok c →
      ∀ (j : Nat) (s : Seg K), t[k + j]? = some s → ∃ s' : Seg K, (bloat c)[j]? = some s' ∧ BoxLe s'.box s.box := by
  unfold fullTube at h
  by_cases h0 : segLen = 0
  · rw [if_pos h0] at h; cases h
  · rw [if_neg h0] at h
    obtain ⟨o, ho, h⟩ := (bind_ok_iff _ _ _).1 h
    cases o with
    | none => cases h
    | some t1 =>
      injection h with h; subst h
      cases inits with
      | nil => injection ho with ho; cases ho
      | cons r rest =>
        unfold fullTubeLoop at ho
        obtain ⟨c0, hc0, ho⟩ := (bind_ok_iff _ _ _).1 ho
        dsimp only at ho
        obtain ⟨e1, e2⟩ := loop_spec (Nat.pos_of_ne_zero h0) hdim _ _ _ (bloat c0) t1 (by
          rw [List.length_drop]; simp only [List.length_cons]; omega) (fun r hr => hr0 r (List.mem_of_mem_drop hr))
          (hdim c0 (combineRect_dim (fun r hr => hr0 r (List.mem_of_mem_take hr)) hc0)) ho
        refine ⟨⟨c0, hc0, e1⟩, ?_⟩
        intro k c hk hkl hc j s hs
        rcases Nat.eq_zero_or_pos k with rfl | hkp
        · rw [List.drop_zero, hc0] at hc
          injection hc with hc; subst hc
          obtain ⟨-, s1, hs1, -, -, hle⟩ := e1.seg _ _ hs
          exact ⟨s1, by simpa using hs1, hle⟩
        · obtain ⟨m', rfl⟩ := Nat.exists_eq_add_of_le (Nat.le_of_dvd hkp hk)
          refine e2 m' c ((Nat.dvd_add_right (dvd_refl segLen)).1 hk) ?_ ?_ j s ?_
          · rw [List.length_drop]; omega
          · rw [List.drop_drop]; exact hc
          · rw [Nat.zero_add]; exact hs

end Verif.Proofs.Ver
