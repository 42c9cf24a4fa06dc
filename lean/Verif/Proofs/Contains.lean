import Verif.Spec.Contains
import Verif.Proofs.Basic
import Verif.Proofs.ATree
import Mathlib.Tactic.Ring
import Mathlib.Tactic.FieldSimp

/-! Helper lemmas for C11. -/

set_option autoImplicit false

namespace Verif.Proofs.Cont
open Verif Verif.ATree Verif.Spec

/-- points of a union of intervals -/
def Mem (x : ℚ) (c : Cell) : Prop := ∃ p ∈ c, p.1 ≤ x ∧ x ≤ p.2

theorem mem_closed (a b x : ℚ) : Mem x (closed a b) ↔ a ≤ x ∧ x ≤ b := by
  unfold closed Mem
  split
  · simp
  · constructor
    · simp
    · rintro ⟨h1, h2⟩; exact absurd (h1.trans h2) ‹_›

theorem mem_addI (p : ℚ × ℚ) (c : Cell) (x : ℚ) : Mem x (addI p c) ↔ (p.1 ≤ x ∧ x ≤ p.2) ∨ Mem x c := by
  induction c generalizing p with
  | nil => simp [addI, Mem]
  | cons y l ih =>
    unfold addI
    split
    · simp [Mem]
    · split
      · simp only [Mem, List.mem_cons, exists_eq_or_imp] at ih ⊢
        rw [ih p]; tauto
      · rename_i h1 h2
        rw [ih]
        simp only [Mem, List.mem_cons, exists_eq_or_imp, min_le_iff, le_max_iff]
        push Not at h1 h2
        constructor
        · rintro (⟨h3, h4⟩ | h)
          · by_cases hx : p.1 ≤ x ∧ x ≤ p.2
            · exact Or.inl hx
            · right; left
              rcases h3 with h3 | h3 <;> rcases h4 with h4 | h4
              · exact absurd ⟨h3, h4⟩ hx
              · refine ⟨?_, h4⟩
                by_contra hy; push Not at hy
                exact hx ⟨h3, hy.le.trans h1⟩
              · refine ⟨h3, ?_⟩
                by_contra hy; push Not at hy
                exact hx ⟨h2.trans hy.le, h4⟩
              · exact ⟨h3, h4⟩
          · exact Or.inr (Or.inr h)
        · rintro (⟨h3, h4⟩ | ⟨h3, h4⟩ | h)
          · exact Or.inl ⟨Or.inl h3, Or.inl h4⟩
          · exact Or.inl ⟨Or.inr h3, Or.inr h4⟩
          · exact Or.inr h

theorem mem_foldl_addI (l c : Cell) (x : ℚ) : Mem x (l.foldl (fun c x => addI x c) c) ↔ Mem x c ∨ Mem x l := by
  induction l generalizing c with
  | nil => simp [Mem]
  | cons y l ih =>
    rw [List.foldl_cons, ih, mem_addI]
    have : Mem x (y :: l) ↔ (y.1 ≤ x ∧ x ≤ y.2) ∨ Mem x l := by simp [Mem]
    rw [this]
    tauto

theorem mem_union (a b : Cell) (x : ℚ) : Mem x (union a b) ↔ Mem x a ∨ Mem x b := mem_foldl_addI b a x

theorem mem_foldl_union (l : List Cell) (c : Cell) (x : ℚ) : Mem x (l.foldl union c) ↔ Mem x c ∨ ∃ d ∈ l, Mem x d := by
  induction l generalizing c with
  | nil => simp
  | cons y l ih => rw [List.foldl_cons, ih, mem_union]; simp; tauto

/-- every interval put into a union lies in one of its parts -/
theorem addI_covers (p : ℚ × ℚ) (c : Cell) : ∀ q, q = p ∨ q ∈ c → ∃ r ∈ addI p c, r.1 ≤ q.1 ∧ q.2 ≤ r.2 := by
  induction c generalizing p with
  | nil => intro q hq; simp at hq; subst hq; exact ⟨q, by simp [addI], le_refl _, le_refl _⟩
  | cons y l ih =>
    intro q hq
    unfold addI
    split
    · exact ⟨q, by simpa using hq, le_refl _, le_refl _⟩
    · split
      · rcases hq with h | h
        · obtain ⟨r, h1, h2⟩ := ih p q (Or.inl h); exact ⟨r, by simp [h1], h2⟩
        · rcases List.mem_cons.1 h with h | h
          · exact ⟨q, by simp [h], le_refl _, le_refl _⟩
          · obtain ⟨r, h1, h2⟩ := ih p q (Or.inr h); exact ⟨r, by simp [h1], h2⟩
      · have key := ih (min p.1 y.1, max p.2 y.2)
        have hm := key _ (Or.inl rfl)
        rcases hq with h | h
        · subst h; obtain ⟨r, h1, h2, h3⟩ := hm
          exact ⟨r, h1, h2.trans (min_le_left _ _), (le_max_left _ _).trans h3⟩
        · rcases List.mem_cons.1 h with h | h
          · subst h; obtain ⟨r, h1, h2, h3⟩ := hm
            exact ⟨r, h1, h2.trans (min_le_right _ _), (le_max_right _ _).trans h3⟩
          · exact key q (Or.inr h)

theorem foldl_addI_covers (l c : Cell) : ∀ q, q ∈ c ∨ q ∈ l → ∃ r ∈ l.foldl (fun c x => addI x c) c, r.1 ≤ q.1 ∧ q.2 ≤ r.2 := by
  induction l generalizing c with
  | nil => intro q hq; simp at hq; exact ⟨q, hq, le_refl _, le_refl _⟩
  | cons y l ih =>
    intro q hq
    rw [List.foldl_cons]
    rw [List.mem_cons] at hq
    have : (q = y ∨ q ∈ c) ∨ q ∈ l := by tauto
    rcases this with h | h
    · obtain ⟨r, h1, h2, h3⟩ := addI_covers y c q h
      obtain ⟨r', h4, h5, h6⟩ := ih (addI y c) r (Or.inl h1)
      exact ⟨r', h4, h5.trans h2, h3.trans h6⟩
    · exact ih _ q (Or.inr h)

/-- `x` within `tol` of a nonempty closed interval is within `tol` of a point of it -/
theorem near_interval {a b tol x : ℚ} (hab : a ≤ b) (ht : 0 ≤ tol) (h1 : a - tol ≤ x) (h2 : x ≤ b + tol) :
    ∃ y, a ≤ y ∧ y ≤ b ∧ |x - y| ≤ tol := by
  by_cases hx : x < a
  · exact ⟨a, le_refl _, hab, by rw [abs_le]; constructor <;> linarith⟩
  · by_cases hx' : b < x
    · exact ⟨b, hab, le_refl _, by rw [abs_le]; constructor <;> linarith⟩
    · exact ⟨x, by linarith, by linarith, by simpa using ht⟩

/-! exceptions -/

theorem mapM_ex {α β ε : Type} (f : α → Except ε β) (P : α → β → Prop) (l : List α) (h : ∀ a ∈ l, ∃ b, f a = .ok b ∧ P a b) :
    ∃ r, l.mapM f = .ok r ∧ List.Forall₂ P l r := by
  induction l with
  | nil => exact ⟨[], rfl, .nil⟩
  | cons a l ih =>
    obtain ⟨b, h1, h2⟩ := h a (by simp)
    obtain ⟨r, h3, h4⟩ := ih (fun x hx => h x (by simp [hx]))
    exact ⟨b :: r, by rw [List.mapM_cons, h1, h3]; rfl, .cons h2 h4⟩

theorem mapM_range_ex {β ε : Type} (f : Nat → Except ε β) (P : Nat → β → Prop) (n : Nat) (h : ∀ i < n, ∃ b, f i = .ok b ∧ P i b) :
    ∃ r, (List.range n).mapM f = .ok r ∧ r.length = n ∧ ∀ i < n, ∃ b, r[i]? = some b ∧ P i b := by
  obtain ⟨r, h1, h2⟩ := mapM_ex f P (List.range n) (fun a ha => h a (List.mem_range.1 ha))
  have hl : r.length = n := by rw [← h2.length_eq, List.length_range]
  refine ⟨r, h1, hl, fun i hi => ?_⟩
  rw [List.forall₂_iff_get] at h2
  have := h2.2 i (by simpa using hi) (by omega)
  simp only [List.get_eq_getElem, List.getElem_range] at this
  exact ⟨r[i], by simp [hl, hi], this⟩

theorem mapM_map_ok {α β ε : Type} (f : α → Except ε β) (g : α → β) (l : List α) (h : ∀ a ∈ l, f a = .ok (g a)) :
    l.mapM f = .ok (l.map g) := by
  induction l with
  | nil => rfl
  | cons a l ih =>
    rw [List.mapM_cons, h a (by simp), ih (fun x hx => h x (by simp [hx]))]; rfl

theorem idx_some {α : Type} {l : List α} {i : Nat} {a : α} (h : l[i]? = some a) : idx l i = .ok a := by rw [idx, h]

theorem key_some {α : Type} {d : Dict String α} {k : String} {a : α} (h : Dict.get? d k = some a) : key d k = .ok a := by
  rw [key, h]

/-- table lookup after `{aid: f(aid) for aid in m}` -/
theorem table_get {α : Type} {m : List String} {r : Dict String α} {Q : String → α → Prop}
    (h : List.Forall₂ (fun a e => e.1 = a ∧ Q a e.2) m r) {a : String} (ha : a ∈ m) :
    ∃ v, Dict.get? r a = some v ∧ Q a v := by
  obtain ⟨e, he, h1, h2⟩ := forall₂_mem_left h ha
  have hs : (Dict.get? r a).isSome = true := by
    rw [Dict.isSome_get?_iff]; exact List.mem_map.2 ⟨e, he, h1⟩
  obtain ⟨v, hv⟩ := Option.isSome_iff_exists.1 hs
  obtain ⟨a', _, h3, h4⟩ := forall₂_mem_right h (Dict.mem_of_get? hv)
  dsimp only at h3 h4
  subst h3
  exact ⟨v, hv, h4⟩

/-- the meaning of one agent's entry -/
def GoodL (cont N : Nat) (S : Nat → Nat → ℚ → Prop) (l : List (List Cell)) : Prop :=
  l.length = N ∧ ∀ i < N, ∃ row, l[i]? = some row ∧ row.length = cont ∧
    ∀ j < cont, ∃ c, row[j]? = some c ∧ (∀ x, Mem x c ↔ S i j x) ∧ ∀ p ∈ c, p.1 ≤ p.2

/-- a table whose entry for every agent of `m` has `N` steps and `cont` dimensions with the given meaning -/
def Good (m : List String) (cont N : Nat) (S : String → Nat → Nat → ℚ → Prop) (r : Ranges) : Prop :=
  ∀ a ∈ m, ∃ l, Dict.get? r a = some l ∧ GoodL cont N (S a) l

theorem addI_wf (p : ℚ × ℚ) (c : Cell) (hp : p.1 ≤ p.2) (hc : ∀ p ∈ c, p.1 ≤ p.2) : ∀ q ∈ addI p c, q.1 ≤ q.2 := by
  induction c generalizing p with
  | nil => intro q hq; simp [addI] at hq; subst hq; exact hp
  | cons y l ih =>
    unfold addI
    split
    · intro q hq; rcases List.mem_cons.1 hq with h | h
      · subst h; exact hp
      · exact hc q h
    · split
      · intro q hq; rcases List.mem_cons.1 hq with h | h
        · subst h; exact hc _ (by simp)
        · exact ih p hp (fun r hr => hc r (by simp [hr])) q h
      · exact ih _ (by
          dsimp only
          exact (min_le_left _ _).trans (hp.trans (le_max_left _ _))) (fun r hr => hc r (by simp [hr]))

theorem foldl_addI_wf (l c : Cell) (hl : ∀ p ∈ l, p.1 ≤ p.2) (hc : ∀ p ∈ c, p.1 ≤ p.2) :
    ∀ q ∈ l.foldl (fun c x => addI x c) c, q.1 ≤ q.2 := by
  induction l generalizing c with
  | nil => exact hc
  | cons y l ih => exact ih _ (fun p hp => hl p (by simp [hp])) (addI_wf y c (hl y (by simp)) hc)

theorem foldl_union_wf (l : List Cell) (c : Cell) (hl : ∀ d ∈ l, ∀ p ∈ d, p.1 ≤ p.2) (hc : ∀ p ∈ c, p.1 ≤ p.2) :
    ∀ q ∈ l.foldl union c, q.1 ≤ q.2 := by
  induction l generalizing c with
  | nil => exact hc
  | cons y l ih => exact ih _ (fun d hd => hl d (by simp [hd])) (foldl_addI_wf y c (hl y (by simp)) hc)

/-- the node's own table -/
theorem cur_good {m : List String} {cont L : Nat} {n : CNode}
    (hn : ∀ a ∈ m, ∃ rows, Dict.get? n.trace a = some rows ∧ rows.length = 2 * L ∧ (∀ r ∈ rows, r.length = cont)) :
    ∃ r, curRanges m cont (2 * L) n = .ok r ∧ Good m cont L (fun a i j x => ∃ rows lo hi p q, Dict.get? n.trace a = some rows ∧
      rows[2 * i]? = some lo ∧ rows[2 * i + 1]? = some hi ∧ lo[j]? = some p ∧ hi[j]? = some q ∧ p ≤ x ∧ x ≤ q) r := by
  have := mapM_ex (fun aid => do
    let rows ← key n.trace aid
    let c ← (List.range ((2 * L + 1) / 2)).mapM (fun k => (List.range cont).mapM (fun j => cellAt rows (2 * k) j))
    .ok (aid, c)) (fun a e => e.1 = a ∧ GoodL cont L (fun i j x => ∃ rows lo hi p q, Dict.get? n.trace a = some rows ∧
      rows[2 * i]? = some lo ∧ rows[2 * i + 1]? = some hi ∧ lo[j]? = some p ∧ hi[j]? = some q ∧ p ≤ x ∧ x ≤ q) e.2) m ?_
  · obtain ⟨r, h1, h2⟩ := this
    exact ⟨r, h1, fun a ha => table_get (Q := fun a l => GoodL cont L (fun i j x => ∃ rows lo hi p q, Dict.get? n.trace a = some rows ∧
      rows[2 * i]? = some lo ∧ rows[2 * i + 1]? = some hi ∧ lo[j]? = some p ∧ hi[j]? = some q ∧ p ≤ x ∧ x ≤ q) l) h2 ha⟩
  · intro a ha
    obtain ⟨rows, hr, hl, hw⟩ := hn a ha
    have hL : (2 * L + 1) / 2 = L := by omega
    rw [key_some hr, hL]
    have := mapM_range_ex (fun k => (List.range cont).mapM (fun j => cellAt rows (2 * k) j)) (fun i row => row.length = cont ∧
      ∀ j < cont, ∃ c, row[j]? = some c ∧ (∀ x, Mem x c ↔ ∃ rows lo hi p q, Dict.get? n.trace a = some rows ∧
      rows[2 * i]? = some lo ∧ rows[2 * i + 1]? = some hi ∧ lo[j]? = some p ∧ hi[j]? = some q ∧ p ≤ x ∧ x ≤ q) ∧
      ∀ p ∈ c, p.1 ≤ p.2) L ?_
    · obtain ⟨c, h1, h2, h3⟩ := this
      refine ⟨(a, c), ?_, rfl, h2, h3⟩
      dsimp only [bind, Except.bind] at h1 ⊢
      rw [h1]
    · intro i hi
      have e1 : rows[2 * i]? = some rows[2 * i] := List.getElem?_eq_getElem (by omega)
      have e2 : rows[2 * i + 1]? = some rows[2 * i + 1] := List.getElem?_eq_getElem (by omega)
      apply mapM_range_ex
      intro j hj
      have w1 := hw rows[2 * i] (List.getElem_mem _)
      have w2 := hw rows[2 * i + 1] (List.getElem_mem _)
      have e3 : rows[2 * i][j]? = some (rows[2 * i][j]'(by omega)) := by simp [w1, hj]
      have e4 : rows[2 * i + 1][j]? = some (rows[2 * i + 1][j]'(by omega)) := by simp [w2, hj]
      refine ⟨closed (rows[2 * i][j]'(by omega)) (rows[2 * i + 1][j]'(by omega)), ?_, ?_, ?_⟩
      · rw [cellAt, idx_some e1]
        dsimp only [bind, Except.bind]
        rw [idx_some e3]
        dsimp only
        rw [idx_some e2]
        dsimp only
        rw [idx_some e4]
      · intro x
        rw [mem_closed]
        constructor
        · intro h; exact ⟨rows, _, _, _, _, hr, e1, e2, e3, e4, h⟩
        · rintro ⟨rows', lo, hi', p, q, q1, q2, q3, q4, q5, q6⟩
          rw [hr] at q1; cases q1
          rw [e1] at q2; cases q2
          rw [e2] at q3; cases q3
          rw [e3] at q4; cases q4
          rw [e4] at q5; cases q5
          exact q6
      · intro p hp
        unfold closed at hp
        split at hp
        · simp at hp; subst hp; assumption
        · simp at hp

/-- `combined` -/
theorem combine_good {m : List String} {cont : Nat} {kids : List (Ranges × Int × Nat)} {W : Nat} (hk : kids ≠ [])
    (S : (Ranges × Int × Nat) → String → Nat → Nat → ℚ → Prop) (hg : ∀ k ∈ kids, Good m cont k.2.2 (S k) k.1) :
    ∃ r, combine m cont kids W = .ok r ∧ Good m cont W (fun a i j x => ∃ k ∈ kids, ∃ i' : Nat, i' < k.2.2 ∧
      (i : Int) = k.2.1 + i' ∧ S k a i' j x) r := by
  unfold combine
  obtain ⟨r, h1, h2⟩ := mapM_ex (fun aid => do
    let c ← (List.range W).mapM (fun (i : Nat) => (List.range cont).mapM (fun j => do
      let ops ← kids.mapM (fun k => do
        let ch ← key k.1 aid
        pick ch k.2.2 ((i : Int) - k.2.1) j)
      reduceUnion ops))
    Except.ok (aid, c)) (fun a e => e.1 = a ∧ GoodL cont W (fun i j x => ∃ k ∈ kids, ∃ i' : Nat, i' < k.2.2 ∧
      (i : Int) = k.2.1 + i' ∧ S k a i' j x) e.2) m (by
    intro a ha
    obtain ⟨c, h1, h2, h3⟩ := mapM_range_ex (fun (i : Nat) => (List.range cont).mapM (fun j => do
        let ops ← kids.mapM (fun k => do
          let ch ← key k.1 a
          pick ch k.2.2 ((i : Int) - k.2.1) j)
        reduceUnion ops)) (fun i row => row.length = cont ∧
      ∀ j < cont, ∃ c, row[j]? = some c ∧ (∀ x, Mem x c ↔ ∃ k ∈ kids, ∃ i' : Nat, i' < k.2.2 ∧
      (i : Int) = k.2.1 + i' ∧ S k a i' j x) ∧ ∀ p ∈ c, p.1 ≤ p.2) W (by
        intro i hi
        apply mapM_range_ex
        intro j hj
        obtain ⟨ops, h1, h2⟩ := mapM_ex (fun k => do
          let ch ← key k.1 a
          pick ch k.2.2 ((i : Int) - k.2.1) j) (fun k c => (∀ x, Mem x c ↔ ∃ i' : Nat, i' < k.2.2 ∧
            (i : Int) = k.2.1 + i' ∧ S k a i' j x) ∧ ∀ p ∈ c, p.1 ≤ p.2) kids (by
            intro k hk
            obtain ⟨l, q1, q2, q3⟩ := hg k hk a ha
            rw [key_some q1]
            dsimp only [bind, Except.bind]
            unfold pick
            by_cases hc : 0 ≤ (i : Int) - k.2.1 ∧ (i : Int) - k.2.1 < k.2.2
            · rw [if_pos hc]
              obtain ⟨row, q4, q5, q6⟩ := q3 ((i : Int) - k.2.1).toNat (by omega)
              obtain ⟨c, q7, q8, q9⟩ := q6 j hj
              refine ⟨c, ?_, ?_, q9⟩
              · rw [idx_some q4]
                dsimp only [bind, Except.bind]
                rw [idx_some q7]
              · intro x
                rw [q8]
                constructor
                · intro h; exact ⟨_, by omega, by omega, h⟩
                · rintro ⟨i', p1, p2, p3⟩
                  have : ((i : Int) - k.2.1).toNat = i' := by omega
                  rw [this]; exact p3
            · rw [if_neg hc]
              refine ⟨[], rfl, ?_, by simp⟩
              intro x
              constructor
              · rintro ⟨p, hp, _⟩; simp at hp
              · rintro ⟨i', p1, p2, p3⟩; exfalso; apply hc; omega)
        dsimp only [bind, Except.bind] at h1 ⊢
        rw [h1]
        dsimp only
        cases h2 with
        | nil => exact absurd rfl hk
        | @cons k c ks cs hkc hrest =>
          refine ⟨cs.foldl union c, rfl, ?_, ?_⟩
          · intro x
            rw [mem_foldl_union, hkc.1]
            simp only [List.mem_cons, exists_eq_or_imp]
            apply or_congr Iff.rfl
            constructor
            · rintro ⟨d, hd, hx⟩
              obtain ⟨k', hk', h3⟩ := forall₂_mem_right hrest hd
              exact ⟨k', hk', (h3.1 x).1 hx⟩
            · rintro ⟨k', hk', hx⟩
              obtain ⟨d, hd, h3⟩ := forall₂_mem_left hrest hk'
              exact ⟨d, hd, (h3.1 x).2 hx⟩
          · apply foldl_union_wf
            · intro d hd
              obtain ⟨k', hk', h3⟩ := forall₂_mem_right hrest hd
              exact h3.2
            · exact hkc.2)
    refine ⟨(a, c), ?_, rfl, h2, h3⟩
    dsimp only [bind, Except.bind] at h1 ⊢
    rw [h1])
  exact ⟨r, h1, fun a ha => table_get (Q := fun a l => GoodL cont W (fun i j x => ∃ k ∈ kids, ∃ i' : Nat, i' < k.2.2 ∧
      (i : Int) = k.2.1 + i' ∧ S k a i' j x) l) h2 ha⟩

/-- `overlap` and concatenation -/
theorem stitch_good {m : List String} {cont L W v : Nat} {cur co : Ranges} {S1 S2 : String → Nat → Nat → ℚ → Prop}
    (h1 : Good m cont L S1 cur) (h2 : Good m cont W S2 co) (hv : 0 < v) (hvL : v ≤ L) (hvW : v ≤ W) :
    ∃ r, stitch m cont cur co (v : Int) = .ok r ∧ Good m cont (L - v + W) (fun a i j x =>
      (i < L ∧ S1 a i j x) ∨ (L - v ≤ i ∧ S2 a (i - (L - v)) j x)) r := by
  unfold stitch
  obtain ⟨r, q1, q2⟩ := mapM_ex (fun aid => do
    let cu ← key cur aid
    let co ← key co aid
    let mid ← (List.range (v : Int).toNat).mapM (fun (i : Nat) => (List.range cont).mapM (fun j => do
      let r ← idxZ cu ((i : Int) - (v : Int))
      let a ← idx r j
      let r' ← idx co i
      let b ← idx r' j
      .ok (union a b)))
    Except.ok (aid, sliceTo cu (-(v : Int)) ++ mid ++ sliceFrom co (v : Int))) (fun a e => e.1 = a ∧ GoodL cont (L - v + W)
      (fun i j x => (i < L ∧ S1 a i j x) ∨ (L - v ≤ i ∧ S2 a (i - (L - v)) j x)) e.2) m (by
    intro a ha
    obtain ⟨cu, c1, c2, c3⟩ := h1 a ha
    obtain ⟨cb, d1, d2, d3⟩ := h2 a ha
    rw [key_some c1, key_some d1]
    have hvn : (v : Int).toNat = v := by simp
    rw [hvn]
    obtain ⟨mid, m1, m2, m3⟩ := mapM_range_ex (fun (i : Nat) => (List.range cont).mapM (fun j => do
      let r ← idxZ cu ((i : Int) - (v : Int))
      let a ← idx r j
      let r' ← idx cb i
      let b ← idx r' j
      .ok (union a b))) (fun i row => row.length = cont ∧ ∀ j < cont, ∃ c, row[j]? = some c ∧
        (∀ x, Mem x c ↔ S1 a (L - v + i) j x ∨ S2 a i j x) ∧ ∀ p ∈ c, p.1 ≤ p.2) v (by
        intro i hi
        apply mapM_range_ex
        intro j hj
        obtain ⟨r1, e1, e2, e3⟩ := c3 (L - v + i) (by omega)
        obtain ⟨r2, f1, f2, f3⟩ := d3 i (by omega)
        obtain ⟨x1, g1, g2, g3⟩ := e3 j hj
        obtain ⟨x2, k1, k2, k3⟩ := f3 j hj
        have hz : idxZ cu ((i : Int) - (v : Int)) = .ok r1 := by
          unfold idxZ pyIdx
          rw [if_neg (by omega), if_pos (by omega)]
          have : ((cu.length : Int) + ((i : Int) - (v : Int))).toNat = L - v + i := by omega
          rw [this, e1]
        refine ⟨union x1 x2, ?_, ?_, foldl_addI_wf _ _ k3 g3⟩
        · rw [hz]
          dsimp only [bind, Except.bind]
          rw [idx_some g1]
          dsimp only
          rw [idx_some f1]
          dsimp only
          rw [idx_some k1]
        · intro x
          rw [mem_union, g2, k2])
    have hs1 : sliceTo cu (-(v : Int)) = cu.take (L - v) := by
      unfold sliceTo
      rw [if_neg (by omega)]
      congr 1
      omega
    have hs2 : sliceFrom cb (v : Int) = cb.drop v := by
      unfold sliceFrom
      rw [if_pos (by omega), hvn]
    refine ⟨(a, cu.take (L - v) ++ mid ++ cb.drop v), ?_, rfl, ?_, ?_⟩
    · dsimp only [bind, Except.bind] at m1 ⊢
      rw [m1, hs1, hs2]
    · simp only [List.length_append, List.length_take, List.length_drop, c2, d2, m2]; omega
    · intro i hi
      by_cases hi1 : i < L - v
      · obtain ⟨row, e1, e2, e3⟩ := c3 i (by omega)
        refine ⟨row, ?_, e2, ?_⟩
        · rw [List.append_assoc, List.getElem?_append_left (by simp [c2]; omega), List.getElem?_take, if_pos hi1, e1]
        · intro j hj
          obtain ⟨c, p1, p2, p3⟩ := e3 j hj
          refine ⟨c, p1, ?_, p3⟩
          intro x
          rw [p2]
          constructor
          · intro h; exact Or.inl ⟨by omega, h⟩
          · rintro (⟨_, h⟩ | ⟨h, _⟩)
            · exact h
            · omega
      · by_cases hi2 : i < L
        · obtain ⟨row, e1, e2, e3⟩ := m3 (i - (L - v)) (by omega)
          refine ⟨row, ?_, e2, ?_⟩
          · rw [List.append_assoc, List.getElem?_append_right (by simp [c2]; omega),
              List.getElem?_append_left (by simp [c2, m2]; omega)]
            have : i - (cu.take (L - v)).length = i - (L - v) := by simp [c2]
            rw [this, e1]
          · intro j hj
            obtain ⟨c, p1, p2, p3⟩ := e3 j hj
            refine ⟨c, p1, ?_, p3⟩
            intro x
            rw [p2]
            have : L - v + (i - (L - v)) = i := by omega
            rw [this]
            constructor
            · rintro (h | h)
              · exact Or.inl ⟨hi2, h⟩
              · exact Or.inr ⟨by omega, h⟩
            · rintro (⟨_, h⟩ | ⟨_, h⟩)
              · exact Or.inl h
              · exact Or.inr h
        · obtain ⟨row, e1, e2, e3⟩ := d3 (i - (L - v)) (by omega)
          refine ⟨row, ?_, e2, ?_⟩
          · rw [List.getElem?_append_right (by simp [c2, m2]; omega), List.getElem?_drop]
            have : v + (i - (cu.take (L - v) ++ mid).length) = i - (L - v) := by simp [c2, m2]; omega
            rw [this, e1]
          · intro j hj
            obtain ⟨c, p1, p2, p3⟩ := e3 j hj
            refine ⟨c, p1, ?_, p3⟩
            intro x
            rw [p2]
            constructor
            · intro h; exact Or.inr ⟨by omega, h⟩
            · rintro (⟨h, _⟩ | ⟨_, h⟩)
              · omega
              · exact h)
  exact ⟨r, q1, fun a ha => table_get (Q := fun a l => GoodL cont (L - v + W)
      (fun i j x => (i < L ∧ S1 a i j x) ∨ (L - v ≤ i ∧ S2 a (i - (L - v)) j x)) l) q2 ha⟩

theorem foldl_min_spec (l : List ℚ) (a : ℚ) : (∀ x ∈ a :: l, l.foldl min a ≤ x) ∧ l.foldl min a ∈ a :: l := by
  induction l generalizing a with
  | nil => simp
  | cons b l ih =>
    obtain ⟨h1, h2⟩ := ih (min a b)
    rw [List.foldl_cons]
    refine ⟨?_, ?_⟩
    · intro x hx
      have hm := h1 (min a b) (by simp)
      rcases List.mem_cons.1 hx with h | h
      · subst h; exact hm.trans (min_le_left _ _)
      · rcases List.mem_cons.1 h with h | h
        · subst h; exact hm.trans (min_le_right _ _)
        · exact h1 x (by simp [h])
    · rcases List.mem_cons.1 h2 with h | h
      · rw [h]
        rcases min_choice a b with h' | h' <;> simp [h']
      · simp [h]

end Verif.Proofs.Cont
