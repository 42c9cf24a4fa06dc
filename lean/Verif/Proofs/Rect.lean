import Verif.Model.Rect
import Verif.Spec.Rect
import Verif.Proofs.Basic

/-!
Helper lemmas for rectangles.
-/

set_option autoImplicit false
set_option linter.unusedSectionVars false

namespace Verif.Proofs.Rect

open Verif.Rect Verif.Rect.Spec

section order
variable {K : Type} [LinearOrder K]

/-- Coordinatewise order. -/
abbrev Le (a b : List K) : Prop := List.Forall₂ (fun (x y : K) => x ≤ y) a b

theorem Le.refl (a : List K) : Le a a := by
  induction a with
  | nil => exact .nil
  | cons x a ih => exact .cons (le_refl x) ih

theorem Le.trans {a b c : List K} (h : Le a b) (h' : Le b c) : Le a c := by
  induction h generalizing c with
  | nil => exact h'
  | cons hx _ ih =>
    cases h' with
    | cons hy h' => exact .cons (le_trans hx hy) (ih h')

theorem Le.length {a b : List K} (h : Le a b) : a.length = b.length := List.Forall₂.length_eq h

theorem rowMin_left {a b : List K} (h : a.length = b.length) : Le (rowMin a b) a := by
  induction a generalizing b with
  | nil => cases b <;> simp_all [rowMin]
  | cons x a ih =>
    cases b with
    | nil => simp at h
    | cons y b => exact .cons (min_le_left x y) (ih (by simpa using h))

theorem rowMin_right {a b : List K} (h : a.length = b.length) : Le (rowMin a b) b := by
  induction a generalizing b with
  | nil => cases b <;> simp_all [rowMin]
  | cons x a ih =>
    cases b with
    | nil => simp at h
    | cons y b => exact .cons (min_le_right x y) (ih (by simpa using h))

theorem rowMax_left {a b : List K} (h : a.length = b.length) : Le a (rowMax a b) := by
  induction a generalizing b with
  | nil => cases b <;> simp_all [rowMax]
  | cons x a ih =>
    cases b with
    | nil => simp at h
    | cons y b => exact .cons (le_max_left x y) (ih (by simpa using h))

theorem rowMax_right {a b : List K} (h : a.length = b.length) : Le b (rowMax a b) := by
  induction a generalizing b with
  | nil => cases b <;> simp_all [rowMax]
  | cons x a ih =>
    cases b with
    | nil => simp at h
    | cons y b => exact .cons (le_max_right x y) (ih (by simpa using h))

theorem le_rowMin {a b c : List K} (h : Le c a) (h' : Le c b) : Le c (rowMin a b) := by
  induction h generalizing b with
  | nil => cases h'; exact .nil
  | cons hx _ ih =>
    cases h' with
    | cons hy h' => exact .cons (le_min hx hy) (ih h')

theorem rowMax_le {a b c : List K} (h : Le a c) (h' : Le b c) : Le (rowMax a b) c := by
  induction h generalizing b with
  | nil => cases h'; exact .nil
  | cons hx _ ih =>
    cases h' with
    | cons hy h' => exact .cons (max_le hx hy) (ih h')

theorem foldMin (d : Nat) (as : List (List K)) (a : List K) (ha : a.length = d) (h : ∀ x ∈ as, x.length = d) :
    (∀ x ∈ a :: as, Le (as.foldl rowMin a) x) ∧ (∀ c, (∀ x ∈ a :: as, Le c x) → Le c (as.foldl rowMin a)) := by
  induction as generalizing a with
  | nil => exact ⟨fun x hx => by simp at hx; subst hx; exact Le.refl _, fun c hc => hc a (by simp)⟩
  | cons b as ih =>
    have hb : b.length = d := h b (by simp)
    have hm : Le (rowMin a b) a := rowMin_left (by rw [ha, hb])
    have hm' : Le (rowMin a b) b := rowMin_right (by rw [ha, hb])
    obtain ⟨h1, h2⟩ := ih (rowMin a b) (by rw [hm.length, ha]) (fun x hx => h x (by simp [hx]))
    refine ⟨fun x hx => ?_, fun c hc => ?_⟩
    · simp only [List.mem_cons] at hx
      rcases hx with rfl | rfl | hx
      · exact (h1 _ (by simp)).trans hm
      · exact (h1 _ (by simp)).trans hm'
      · exact h1 x (by simp [hx])
    · refine h2 c (fun x hx => ?_)
      simp only [List.mem_cons] at hx
      rcases hx with rfl | hx
      · exact le_rowMin (hc a (by simp)) (hc b (by simp))
      · exact hc x (by simp [hx])

theorem foldMax (d : Nat) (as : List (List K)) (a : List K) (ha : a.length = d) (h : ∀ x ∈ as, x.length = d) :
    (∀ x ∈ a :: as, Le x (as.foldl rowMax a)) ∧ (∀ c, (∀ x ∈ a :: as, Le x c) → Le (as.foldl rowMax a) c) := by
  induction as generalizing a with
  | nil => exact ⟨fun x hx => by simp at hx; subst hx; exact Le.refl _, fun c hc => hc a (by simp)⟩
  | cons b as ih =>
    have hb : b.length = d := h b (by simp)
    have hm : Le a (rowMax a b) := rowMax_left (by rw [ha, hb])
    have hm' : Le b (rowMax a b) := rowMax_right (by rw [ha, hb])
    obtain ⟨h1, h2⟩ := ih (rowMax a b) (by rw [← hm.length, ha]) (fun x hx => h x (by simp [hx]))
    refine ⟨fun x hx => ?_, fun c hc => ?_⟩
    · simp only [List.mem_cons] at hx
      rcases hx with rfl | rfl | hx
      · exact hm.trans (h1 _ (by simp))
      · exact hm'.trans (h1 _ (by simp))
      · exact h1 x (by simp [hx])
    · refine h2 c (fun x hx => ?_)
      simp only [List.mem_cons] at hx
      rcases hx with rfl | hx
      · exact rowMax_le (hc a (by simp)) (hc b (by simp))
      · exact hc x (by simp [hx])

/-- The combined corners bound all rectangles, and are the tightest such. -/
theorem combine_corners (d : Nat) (r : Box K) (rs : List (Box K)) (h : ∀ s ∈ r :: rs, s.1.length = d ∧ s.2.length = d) :
    let c : Box K := ((rs.map Prod.fst).foldl rowMin r.1, (rs.map Prod.snd).foldl rowMax r.2)
    (∀ s ∈ r :: rs, Le c.1 s.1 ∧ Le s.2 c.2) ∧
    (∀ b : Box K, (∀ s ∈ r :: rs, Le b.1 s.1 ∧ Le s.2 b.2) → Le b.1 c.1 ∧ Le c.2 b.2) := by
  intro c
  obtain ⟨a1, a2⟩ := foldMin d (rs.map Prod.fst) r.1 (h r (by simp)).1
    (fun x hx => by obtain ⟨s, hs, rfl⟩ := List.mem_map.1 hx; exact (h s (by simp [hs])).1)
  obtain ⟨b1, b2⟩ := foldMax d (rs.map Prod.snd) r.2 (h r (by simp)).2
    (fun x hx => by obtain ⟨s, hs, rfl⟩ := List.mem_map.1 hx; exact (h s (by simp [hs])).2)
  have hm1 : ∀ s ∈ r :: rs, s.1 ∈ r.1 :: rs.map Prod.fst := by
    intro s hs
    rw [← List.map_cons (f := Prod.fst)]
    exact List.mem_map_of_mem hs
  have hm2 : ∀ s ∈ r :: rs, s.2 ∈ r.2 :: rs.map Prod.snd := by
    intro s hs
    rw [← List.map_cons (f := Prod.snd)]
    exact List.mem_map_of_mem hs
  refine ⟨fun s hs => ⟨a1 _ (hm1 s hs), b1 _ (hm2 s hs)⟩, fun b hb => ⟨a2 _ (fun x hx => ?_), b2 _ (fun x hx => ?_)⟩⟩
  · rw [← List.map_cons (f := Prod.fst)] at hx
    obtain ⟨s, hs, rfl⟩ := List.mem_map.1 hx
    exact (hb s hs).1
  · rw [← List.map_cons (f := Prod.snd)] at hx
    obtain ⟨s, hs, rfl⟩ := List.mem_map.1 hx
    exact (hb s hs).2

theorem inside_mono {p : List K} {r s : Box K} (h : Inside p s) (h1 : Le r.1 s.1) (h2 : Le s.2 r.2) : Inside p r :=
  ⟨Le.trans h1 h.1, Le.trans h.2 h2⟩

theorem proper_lengths {d : Nat} {r : Box K} (h : Proper d r) : r.1.length = d ∧ r.2.length = d :=
  ⟨h.1, by rw [← Le.length h.2, h.1]⟩

/-- What both ways to combine rectangles return. -/
theorem combine_spec (d : Nat) (r : Box K) (rs : List (Box K)) (h : ∀ s ∈ r :: rs, Proper d s) :
    let c : Box K := ((rs.map Prod.fst).foldl rowMin r.1, (rs.map Prod.snd).foldl rowMax r.2)
    Proper d c ∧ (∀ s ∈ r :: rs, ∀ p, Inside p s → Inside p c) ∧
    (∀ b : Box K, (∀ s ∈ r :: rs, ∀ p, Inside p s → Inside p b) → ∀ p, Inside p c → Inside p b) := by
  intro c
  obtain ⟨h1, h2⟩ := combine_corners d r rs (fun s hs => proper_lengths (h s hs))
  have hr := h r (by simp)
  refine ⟨⟨?_, ?_⟩, fun s hs p hp => inside_mono hp (h1 s hs).1 (h1 s hs).2, fun b hb p hp => ?_⟩
  · rw [Le.length (h1 r (by simp)).1, hr.1]
  · exact ((h1 r (by simp)).1.trans hr.2).trans (h1 r (by simp)).2
  · obtain ⟨g1, g2⟩ := h2 b (fun s hs =>
      ⟨(hb s hs s.1 ⟨Le.refl _, (h s hs).2⟩).1, (hb s hs s.2 ⟨(h s hs).2, Le.refl _⟩).2⟩)
    exact inside_mono hp g1 g2

end order

section partition
variable {K : Type} [Field K] [LinearOrder K] [IsStrictOrderedRing K]

theorem varyingDims_ok (r : Box K) (dims vd : List Nat) (h : varyingDims r dims = .ok vd) :
    (∀ i, i ∈ vd ↔ i ∈ dims ∧ ∃ a b, r.1[i]? = some a ∧ r.2[i]? = some b ∧ a ≠ b) ∧ (dims.Nodup → vd.Nodup) ∧
    (∀ i ∈ dims, i < r.1.length ∧ i < r.2.length) := by
  induction dims generalizing vd with
  | nil => simp [varyingDims] at h; subst h; simp
  | cons i is ih =>
    simp only [varyingDims] at h
    cases ha : r.1[i]? with
    | none => simp [ha] at h
    | some a =>
      cases hb : r.2[i]? with
      | none => simp [ha, hb] at h
      | some b =>
        simp only [ha, hb] at h
        obtain ⟨ds, hds, he⟩ := (map_ok_iff ..).1 h
        obtain ⟨h1, h2, h3⟩ := ih ds hds
        refine ⟨fun j => ?_, fun hn => ?_, fun j hj => ?_⟩
        · subst he
          by_cases hab : a ≠ b
          · rw [if_pos hab]
            simp only [List.mem_cons, h1]
            constructor
            · rintro (rfl | hj)
              · exact ⟨.inl rfl, a, b, ha, hb, hab⟩
              · exact ⟨.inr hj.1, hj.2⟩
            · rintro ⟨rfl | hj, hx⟩
              · exact .inl rfl
              · exact .inr ⟨hj, hx⟩
          · rw [if_neg hab]
            simp only [List.mem_cons, h1]
            constructor
            · exact fun hj => ⟨.inr hj.1, hj.2⟩
            · rintro ⟨rfl | hj, x, y, hx, hy, hxy⟩
              · rw [ha] at hx; rw [hb] at hy; cases hx; cases hy
                exact absurd hxy hab
              · exact ⟨hj, x, y, hx, hy, hxy⟩
        · rw [List.nodup_cons] at hn
          subst he
          split
          · exact List.nodup_cons.2 ⟨fun hm => hn.1 ((h1 i).1 hm).1, h2 hn.2⟩
          · exact h2 hn.2
        · rw [List.mem_cons] at hj
          rcases hj with rfl | hj
          · exact ⟨(List.getElem?_eq_some_iff.1 ha).1, (List.getElem?_eq_some_iff.1 hb).1⟩
          · exact h3 j hj

/-- The step of the fold of `piece`. -/
abbrev pstep (r : Box K) (n : Nat) (s : Box K) (dj : Nat × Nat) : Box K :=
  (s.1.set dj.1 (cut (r.1.getD dj.1 0) (r.2.getD dj.1 0) n dj.2),
    s.2.set dj.1 (cut (r.1.getD dj.1 0) (r.2.getD dj.1 0) n (dj.2 + 1)))

theorem pfold_length (r : Box K) (n : Nat) (js : List (Nat × Nat)) (s : Box K) :
    (js.foldl (pstep r n) s).1.length = s.1.length ∧ (js.foldl (pstep r n) s).2.length = s.2.length := by
  induction js generalizing s with
  | nil => simp
  | cons j js ih => simpa using ih (pstep r n s j)

theorem pfold_other (r : Box K) (n : Nat) (js : List (Nat × Nat)) (s : Box K) (i : Nat) (h : i ∉ js.map Prod.fst) :
    (js.foldl (pstep r n) s).1[i]? = s.1[i]? ∧ (js.foldl (pstep r n) s).2[i]? = s.2[i]? := by
  induction js generalizing s with
  | nil => simp
  | cons j js ih =>
    simp only [List.map_cons, List.mem_cons, not_or] at h
    obtain ⟨h1, h2⟩ := ih (pstep r n s j) h.2
    rw [List.foldl_cons, h1, h2]
    simp [List.getElem?_set_ne (Ne.symm h.1)]

theorem pfold_at (r : Box K) (n : Nat) (js : List (Nat × Nat)) (s : Box K) (i k : Nat) (hn : (js.map Prod.fst).Nodup)
    (h : (i, k) ∈ js) (h1 : i < s.1.length) (h2 : i < s.2.length) :
    (js.foldl (pstep r n) s).1[i]? = some (cut (r.1.getD i 0) (r.2.getD i 0) n k) ∧
    (js.foldl (pstep r n) s).2[i]? = some (cut (r.1.getD i 0) (r.2.getD i 0) n (k + 1)) := by
  induction js generalizing s with
  | nil => simp at h
  | cons j js ih =>
    simp only [List.map_cons, List.nodup_cons] at hn
    rw [List.mem_cons] at h
    rcases h with rfl | h
    · obtain ⟨g1, g2⟩ := pfold_other r n js (pstep r n s (i, k)) i hn.1
      rw [List.foldl_cons, g1, g2]
      simp [h1, h2]
    · rw [List.foldl_cons]
      exact ih (pstep r n s j) hn.2 h (by simpa using h1) (by simpa using h2)

theorem exists_piece (a b x : K) (n : Nat) (hn : 0 < n) (hax : a ≤ x) (hxb : x ≤ b) :
    ∃ k, k < n ∧ cut a b n k ≤ x ∧ x ≤ cut a b n (k + 1) := by
  have hn' : (n : K) ≠ 0 := by exact_mod_cast hn.ne'
  have h0 : cut a b n 0 ≤ x := by simpa [cut] using hax
  have hlast : x ≤ cut a b n n := by
    unfold cut
    rw [mul_div_cancel₀ _ hn']
    linarith
  by_contra hcon
  have hcon' : ∀ k, k < n → cut a b n k ≤ x → cut a b n (k + 1) < x := by
    intro k hk h
    by_contra hx
    exact hcon ⟨k, hk, h, not_lt.1 hx⟩
  have hall : ∀ k, k < n → cut a b n (k + 1) < x := by
    intro k
    induction k with
    | zero => exact fun hk => hcon' 0 hk h0
    | succ k ih => exact fun hk => hcon' (k + 1) hk (le_of_lt (ih (by omega)))
  have := hall (n - 1) (by omega)
  rw [Nat.sub_add_cancel hn] at this
  exact absurd hlast (not_le.2 this)

theorem cut_mono (a b : K) (h : a ≤ b) (n j k : Nat) (hjk : j ≤ k) : cut a b n j ≤ cut a b n k := by
  unfold cut
  have : (j : K) ≤ (k : K) := by exact_mod_cast hjk
  have h2 : 0 ≤ (b - a) / (n : K) := div_nonneg (by linarith) (by positivity)
  nlinarith [mul_le_mul_of_nonneg_right this h2]

theorem cut_zero (a b : K) (n : Nat) : cut a b n 0 = a := by simp [cut]

theorem cut_last (a b : K) (n : Nat) (hn : 0 < n) : cut a b n n = b := by
  have hn' : (n : K) ≠ 0 := by exact_mod_cast hn.ne'
  unfold cut
  rw [mul_div_cancel₀ _ hn']
  ring

end partition

end Verif.Proofs.Rect
