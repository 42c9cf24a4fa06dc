import Verif.Model.Incremental
import Verif.Proofs.Basic
import Mathlib.Tactic.Linarith

/-! Lemmas on the caches of incremental analysis. -/

set_option autoImplicit false
set_option linter.unusedSectionVars false

namespace Verif.Proofs.Inc

open Verif.Inc
open Verif.Rect (Box)

variable {K E : Type}

/-- `x` is stored in the tree under the intervals `ivs`. -/
inductive Entry : ITree K E → List (K × K) → E → Prop
  | leaf (e : E) : Entry (.leaf e) [] e
  | node {l : List (K × K × ITree K E)} {b e : K} {t : ITree K E} {ivs : List (K × K)} {x : E} :
      (b, e, t) ∈ l → Entry t ivs x → Entry (.node l) ((b, e) :: ivs) x

theorem entry_leaf {e x : E} {ivs : List (K × K)} : Entry (.leaf e) ivs x ↔ ivs = [] ∧ x = e := by
  constructor
  · intro h; cases h; exact ⟨rfl, rfl⟩
  · rintro ⟨rfl, rfl⟩; exact .leaf _

theorem entry_node {l : List (K × K × ITree K E)} {ivs : List (K × K)} {x : E} :
    Entry (.node l) ivs x ↔ ∃ b e t js, ivs = (b, e) :: js ∧ (b, e, t) ∈ l ∧ Entry t js x := by
  constructor
  · intro h; cases h with
    | node hm he => exact ⟨_, _, _, _, rfl, hm, he⟩
  · rintro ⟨b, e, t, js, rfl, hm, he⟩; exact .node hm he

theorem insertAt_node [LinearOrder K] {ivs : List (K × K)} {e : E} {t t' : ITree K E} (h : insertAt ivs e t = .ok t') :
    ∃ l l', t = .node l ∧ t' = .node l' := by
  match ivs, t, h with
  | [iv], .node l, h =>
    unfold insertAt at h
    by_cases hc : iv.1 < iv.2
    · rw [if_pos hc] at h; injection h with h; exact ⟨_, _, rfl, h.symm⟩
    · rw [if_neg hc] at h; cases h
  | iv :: jv :: ivs, .node l, h =>
    unfold insertAt at h
    by_cases hc : iv.1 < iv.2
    · rw [if_pos hc] at h
      obtain ⟨t1, -, rfl⟩ := (map_ok_iff _ _ _).1 h
      exact ⟨_, _, rfl, rfl⟩
    · rw [if_neg hc] at h; cases h

theorem insertAt_entry [LinearOrder K] : ∀ {ivs : List (K × K)} {e : E} {t t' : ITree K E}, insertAt ivs e t = .ok t' →
    ∀ (js : List (K × K)) (x : E), Entry t' js x ↔ Entry t js x ∨ (js = ivs ∧ x = e)
  | [], _, .leaf _, _, h => by cases h
  | [], _, .node _, _, h => by cases h
  | _ :: _, _, .leaf _, _, h => by unfold insertAt at h; cases h
  | [iv], e, .node l, t', h => by
    intro js x
    unfold insertAt at h
    by_cases hc : iv.1 < iv.2
    · rw [if_pos hc] at h; injection h with h; subst h
      rw [entry_node, entry_node]
      constructor
      · rintro ⟨b, e', t, js', rfl, hm, he⟩
        rcases List.mem_append.1 hm with hm | hm
        · exact .inl ⟨_, _, _, _, rfl, hm, he⟩
        · rw [List.mem_singleton] at hm
          injection hm with h1 h2; injection h2 with h2 h3; subst h1 h2 h3
          obtain ⟨rfl, rfl⟩ := entry_leaf.1 he
          exact .inr ⟨rfl, rfl⟩
      · rintro (⟨b, e', t, js', rfl, hm, he⟩ | ⟨rfl, rfl⟩)
        · exact ⟨_, _, _, _, rfl, List.mem_append_left _ hm, he⟩
        · exact ⟨_, _, _, _, rfl, List.mem_append_right _ (List.mem_singleton.2 rfl), .leaf _⟩
    · rw [if_neg hc] at h; cases h
  | iv :: jv :: ivs, e, .node l, t', h => by
    intro js x
    unfold insertAt at h
    by_cases hc : iv.1 < iv.2
    · rw [if_pos hc] at h
      obtain ⟨t1, h1, rfl⟩ := (map_ok_iff _ _ _).1 h
      have ih := insertAt_entry h1
      rw [entry_node, entry_node]
      constructor
      · rintro ⟨b, e', t, js', rfl, hm, he⟩
        rcases List.mem_append.1 hm with hm | hm
        · exact .inl ⟨_, _, _, _, rfl, hm, he⟩
        · rw [List.mem_singleton] at hm
          injection hm with h1 h2; injection h2 with h2 h3; subst h1 h2 h3
          rcases (ih _ _).1 he with he | ⟨rfl, rfl⟩
          · obtain ⟨_, _, _, _, -, hm, -⟩ := entry_node.1 he
            cases hm
          · exact .inr ⟨rfl, rfl⟩
      · rintro (⟨b, e', t, js', rfl, hm, he⟩ | ⟨rfl, rfl⟩)
        · exact ⟨_, _, _, _, rfl, List.mem_append_left _ hm, he⟩
        · exact ⟨_, _, _, _, rfl, List.mem_append_right _ (List.mem_singleton.2 rfl), (ih _ _).2 (.inr ⟨rfl, rfl⟩)⟩
    · rw [if_neg hc] at h; cases h

/-- `x` is stored in the cache under a key and intervals. -/
def InCache (c : Cache K E) (key : Key) (ivs : List (K × K)) (x : E) : Prop := ∃ t, Dict.get? c key = some t ∧ Entry t ivs x

theorem inCache_nil {key : Key} {ivs : List (K × K)} {x : E} : ¬ InCache ([] : Cache K E) key ivs x := by
  rintro ⟨t, h, -⟩; cases h

theorem addEntry_inCache [LinearOrder K] {c c' : Cache K E} {key : Key} {ivs : List (K × K)} {e : E} (h : addEntry c key ivs e = .ok c')
    (k : Key) (js : List (K × K)) (x : E) : InCache c' k js x ↔ InCache c k js x ∨ (k = key ∧ js = ivs ∧ x = e) := by
  obtain ⟨t', ht, rfl⟩ := (map_ok_iff _ _ _).1 h
  have ih := insertAt_entry ht
  unfold InCache
  by_cases hk : k = key
  · subst hk
    rw [Dict.get?_set_self]
    constructor
    · rintro ⟨t, ht1, he⟩
      injection ht1 with ht1; subst ht1
      rcases (ih _ _).1 he with he | he
      · left
        cases hg : Dict.get? c k with
        | none => rw [hg] at he; obtain ⟨_, _, _, _, -, hm, -⟩ := entry_node.1 he; cases hm
        | some t0 => rw [hg] at he; exact ⟨_, rfl, he⟩
      · exact .inr ⟨rfl, he⟩
    · rintro (⟨t, ht1, he⟩ | ⟨-, he⟩)
      · refine ⟨_, rfl, (ih _ _).2 (.inl ?_)⟩
        rw [ht1]; exact he
      · exact ⟨_, rfl, (ih _ _).2 (.inr he)⟩
  · rw [Dict.get?_set_ne _ _ _ _ (Ne.symm hk)]
    constructor
    · exact .inl
    · rintro (h | ⟨h, -⟩)
      · exact h
      · exact absurd h hk

theorem firstMin_mem {α κ : Type} [LT κ] [DecidableLT κ] (key : α → κ) : ∀ (l : List α) (b : α), firstMin key b l ∈ b :: l
  | [], b => by simp [firstMin]
  | x :: l, b => by
    have h := firstMin_mem key l (if key x < key b then x else b)
    have : firstMin key b (x :: l) = firstMin key (if key x < key b then x else b) l := rfl
    rw [this]
    rcases List.mem_cons.1 h with h | h
    · rw [h]; split <;> simp
    · exact List.mem_cons_of_mem _ (List.mem_cons_of_mem _ h)

section
variable [Field K] [LinearOrder K]

theorem tubeLoop_entry {eps : K} {ord : Order K E} (hord : ∀ l, (ord l).Perm l) :
    ∀ {cs : List (K × K)} {t : ITree K E} {e : E}, tubeLoop eps ord cs t = .ok (some e) →
      ∃ ivs, Entry t ivs e ∧ List.Forall₂ (fun (iv c : K × K) => iv.1 ≤ c.1 ∧ c.2 ≤ iv.2) ivs cs
  | [], .leaf e, _, h => by injection h with h; injection h with h; subst h; exact ⟨[], .leaf _, .nil⟩
  | [], .node _, _, h => by cases h
  | _ :: _, .leaf _, _, h => by unfold tubeLoop at h; cases h
  | c :: cs, .node l, e, h => by
    unfold tubeLoop at h
    cases hf : (ord l).filter (fits eps c) with
    | nil => rw [hf] at h; cases h
    | cons u us =>
      rw [hf] at h
      dsimp only at h
      have hm := firstMin_mem (fun (e : K × K × ITree K E) => c.1 - e.1 + e.2.1 - c.2) us u
      generalize firstMin (fun (e : K × K × ITree K E) => c.1 - e.1 + e.2.1 - c.2) u us = m at h hm
      rw [← hf] at hm
      obtain ⟨hm1, hm2⟩ := List.mem_filter.1 hm
      have hm3 := (hord l).mem_iff.1 hm1
      obtain ⟨ivs, h1, h2⟩ := tubeLoop_entry hord h
      refine ⟨(m.1, m.2.1) :: ivs, .node hm3 h1, .cons ?_ h2⟩
      simp only [fits, Bool.and_eq_true, decide_eq_true_eq] at hm2
      exact hm2.2

theorem queryAll_entry {ord : Order K E} (hord : ∀ l, (ord l).Perm l) :
    ∀ {cs : List (K × K × ITree K E → Bool)} {t : ITree K E} {r : List E}, queryAll ord cs t = .ok r → ∀ x ∈ r,
      ∃ ivs, Entry t ivs x ∧ List.Forall₂ (fun (iv : K × K) c => ∃ t', c (iv.1, iv.2, t') = true) ivs cs
  | [], .leaf _, _, h, _, _ => by unfold queryAll at h; cases h
  | [], .node _, _, h, _, _ => by unfold queryAll at h; cases h
  | [_], .leaf _, _, h, _, _ => by unfold queryAll at h; cases h
  | _ :: _ :: _, .leaf _, _, h, _, _ => by unfold queryAll at h; cases h
  | [c], .node l, r, h, x, hx => by
    unfold queryAll at h
    have h := (mapM_ok_iff _ _ _).1 h
    obtain ⟨t, ht, hte⟩ := forall₂_mem_right h hx
    obtain ⟨ht1, ht2⟩ := List.mem_filter.1 ht
    have ht3 := (hord l).mem_iff.1 ht1
    obtain ⟨b, e, t⟩ := t
    cases t with
    | node _ => cases hte
    | leaf y =>
      injection hte with hte; subst hte
      exact ⟨_, .node ht3 (.leaf _), .cons ⟨_, ht2⟩ .nil⟩
  | c :: d :: cs, .node l, r, h, x, hx => by
    unfold queryAll at h
    obtain ⟨rs, hrs, rfl⟩ := (map_ok_iff _ _ _).1 h
    have hrs := (mapM_ok_iff _ _ _).1 hrs
    obtain ⟨r1, hr1, hx1⟩ := List.mem_flatten.1 hx
    obtain ⟨t, ht, hte⟩ := forall₂_mem_right hrs hr1
    obtain ⟨ht1, ht2⟩ := List.mem_filter.1 ht
    have ht3 := (hord l).mem_iff.1 ht1
    obtain ⟨b, e, t⟩ := t
    obtain ⟨ivs, h1, h2⟩ := queryAll_entry hord hte x hx1
    exact ⟨_, .node ht3 h1, .cons ⟨_, ht2⟩ h2⟩

end

end Verif.Proofs.Inc
