import Verif.Model.Basic
import Mathlib.Data.List.Forall2
import Mathlib.Data.List.Perm.Basic
import Mathlib.Data.List.Nodup

/-! Helper lemmas on dictionaries, products and exceptions. -/

set_option autoImplicit false

namespace Verif

namespace Dict
variable {K V : Type} [DecidableEq K]

@[simp] theorem get?_nil (k : K) : get? ([] : Dict K V) k = none := rfl

theorem get?_cons (k' : K) (v' : V) (d : Dict K V) (k : K) :
    get? ((k', v') :: d) k = if k' = k then some v' else get? d k := by
  unfold get?
  by_cases h : k' = k <;> simp [h]

theorem get?_set_self (d : Dict K V) (k : K) (v : V) : get? (set d k v) k = some v := by
  induction d with
  | nil => simp [set, get?_cons]
  | cons p d ih =>
    obtain ⟨k', v'⟩ := p
    by_cases h : k' = k
    · simp [set, h, get?_cons]
    · simp [set, h, get?_cons, ih]

theorem get?_set_ne (d : Dict K V) (k : K) (v : V) (k' : K) (h : k ≠ k') : get? (set d k v) k' = get? d k' := by
  induction d with
  | nil => simp [set, get?_cons, h]
  | cons p d ih =>
    obtain ⟨a, b⟩ := p
    by_cases ha : a = k
    · subst ha; simp [set, get?_cons, h]
    · simp [set, ha, get?_cons, ih]

theorem get?_set (d : Dict K V) (k : K) (v : V) (k' : K) :
    get? (set d k v) k' = if k = k' then some v else get? d k' := by
  by_cases h : k = k'
  · subst h; simp [get?_set_self]
  · simp [h, get?_set_ne]

theorem mem_iff (d : Dict K V) (k : K) : mem d k = true ↔ (get? d k).isSome = true := by
  induction d with
  | nil => simp [mem]
  | cons p d ih =>
    obtain ⟨a, b⟩ := p
    by_cases h : a = k
    · simp [mem, get?_cons, h]
    · simp only [mem, List.any_cons, get?_cons, h] at ih ⊢
      simpa [h] using ih

theorem mem_of_get? {d : Dict K V} {k : K} {v : V} (h : get? d k = some v) : (k, v) ∈ d := by
  induction d with
  | nil => simp at h
  | cons p d ih =>
    obtain ⟨a, b⟩ := p
    rw [get?_cons] at h
    by_cases hak : a = k
    · simp [hak] at h; subst h; subst hak; simp
    · simp [hak] at h; exact List.mem_cons_of_mem _ (ih h)

theorem get?_of_mem {d : Dict K V} (hn : (d.map Prod.fst).Nodup) {k : K} {v : V} (h : (k, v) ∈ d) :
    get? d k = some v := by
  induction d with
  | nil => simp at h
  | cons p d ih =>
    obtain ⟨a, b⟩ := p
    rw [get?_cons]
    simp only [List.map_cons, List.nodup_cons] at hn
    rcases List.mem_cons.1 h with h | h
    · injection h with h1 h2; subst h1; subst h2; simp
    · have : a ≠ k := by
        rintro rfl; exact hn.1 (List.mem_map_of_mem (f := Prod.fst) h)
      simp [this, ih hn.2 h]

theorem keys_set (d : Dict K V) (k : K) (v : V) :
    (set d k v).map Prod.fst = if k ∈ d.map Prod.fst then d.map Prod.fst else d.map Prod.fst ++ [k] := by
  induction d with
  | nil => simp [set]
  | cons p d ih =>
    obtain ⟨a, b⟩ := p
    by_cases h : a = k
    · simp [set, h]
    · have h' : ¬ k = a := fun e => h e.symm
      simp only [set, h, if_false, List.map_cons, ih, List.mem_cons, h', false_or]
      split <;> simp

theorem nodup_set {d : Dict K V} (hn : (d.map Prod.fst).Nodup) (k : K) (v : V) :
    ((set d k v).map Prod.fst).Nodup := by
  rw [keys_set]
  split
  · exact hn
  · rename_i h
    rw [List.nodup_append]
    refine ⟨hn, by simp, ?_⟩
    intro a ha b hb
    simp only [List.mem_singleton] at hb
    subst hb
    rintro rfl; exact h ha

theorem isSome_get?_iff (d : Dict K V) (k : K) : (get? d k).isSome = true ↔ k ∈ d.map Prod.fst := by
  induction d with
  | nil => simp
  | cons p d ih =>
    obtain ⟨a, b⟩ := p
    rw [get?_cons]
    by_cases h : a = k
    · simp [h]
    · have : ¬ k = a := fun e => h e.symm
      simp [h, this, ih]

theorem get?_none_iff (d : Dict K V) (k : K) : get? d k = none ↔ k ∉ d.map Prod.fst := by
  rw [← isSome_get?_iff]; cases get? d k <;> simp

theorem set_ne_nil (d : Dict K V) (k : K) (v : V) : set d k v ≠ [] := by
  cases d with
  | nil => simp [set]
  | cons p d => obtain ⟨a, b⟩ := p; simp only [set]; split <;> simp

theorem get?_mapVals {W : Type} (d : Dict K V) (f : V → W) (k : K) :
    get? (List.map (fun kv => (kv.1, f kv.2)) d : Dict K W) k = (get? d k).map f := by
  induction d with
  | nil => simp
  | cons p d ih =>
    obtain ⟨a, b⟩ := p
    rw [List.map_cons, get?_cons, get?_cons, ih]
    split <;> simp

end Dict

/-! ### exceptions -/

theorem mapM_ok_iff {α β ε : Type} (f : α → Except ε β) (l : List α) (r : List β) :
    l.mapM f = .ok r ↔ List.Forall₂ (fun a b => f a = .ok b) l r := by
  induction l generalizing r with
  | nil =>
    simp only [List.mapM_nil, List.forall₂_nil_left_iff]
    constructor
    · intro h; cases h; rfl
    · rintro rfl; rfl
  | cons a l ih =>
    rw [List.mapM_cons]
    constructor
    · intro h
      cases hf : f a with
      | error e => rw [hf] at h; cases h
      | ok b =>
        rw [hf] at h
        cases hm : l.mapM f with
        | error e => rw [hm] at h; cases h
        | ok bs =>
          rw [hm] at h
          cases h
          exact .cons hf ((ih _).1 hm)
    · intro h
      cases h with
      | cons h1 h2 => rw [h1, (ih _).2 h2]; rfl

theorem map_ok_iff {α β ε : Type} (x : Except ε α) (f : α → β) (b : β) :
    x.map f = .ok b ↔ ∃ a, x = .ok a ∧ f a = b := by
  cases x with
  | error e => simp [Except.map]
  | ok a => simp [Except.map]

theorem bind_ok_iff {α β ε : Type} (x : Except ε α) (f : α → Except ε β) (b : β) :
    (x >>= f) = .ok b ↔ ∃ a, x = .ok a ∧ f a = .ok b := by
  cases x with
  | error e => simp [bind, Except.bind]
  | ok a => simp [bind, Except.bind]

theorem foldlM_cons_ok {α β ε : Type} (f : β → α → Except ε β) (b : β) (a : α) (l : List α) (r : β) :
    (a :: l).foldlM f b = .ok r ↔ ∃ b', f b a = .ok b' ∧ l.foldlM f b' = .ok r := by
  rw [List.foldlM_cons, bind_ok_iff]

/-- Invariant of a fold with exceptions. -/
theorem foldlM_inv {α β ε : Type} {f : β → α → Except ε β} {P : β → Prop} {l : List α} {b r : β}
    (h : l.foldlM f b = .ok r) (hb : P b) (hs : ∀ b a b', a ∈ l → P b → f b a = .ok b' → P b') : P r := by
  induction l generalizing b with
  | nil => simp only [List.foldlM_nil] at h; cases h; exact hb
  | cons a l ih =>
    obtain ⟨b', h1, h2⟩ := (foldlM_cons_ok ..).1 h
    exact ih h2 (hs b a b' (by simp) hb h1) (fun b a b' ha => hs b a b' (by simp [ha]))

/-- Invariant of a fold with exceptions, depending on the processed prefix. -/
theorem foldlM_inv_pre {α β ε : Type} {f : β → α → Except ε β} (P : List α → β → Prop) {l : List α} {b r : β}
    (h : l.foldlM f b = .ok r) (hb : P [] b)
    (hs : ∀ pre a b b', a ∈ l → P pre b → f b a = .ok b' → P (pre ++ [a]) b') : P l r := by
  have key : ∀ (l' pre : List α) (b : β), (∀ a ∈ l', a ∈ l) → l'.foldlM f b = .ok r → P pre b → P (pre ++ l') r := by
    intro l'
    induction l' with
    | nil => intro pre b _ h hp; simp only [List.foldlM_nil] at h; cases h; simpa using hp
    | cons a l' ih =>
      intro pre b hm h hp
      obtain ⟨b', h1, h2⟩ := (foldlM_cons_ok ..).1 h
      have := ih (pre ++ [a]) b' (fun x hx => hm x (by simp [hx])) h2 (hs pre a b b' (hm a (by simp)) hp h1)
      simpa using this
  simpa using key l [] b (fun _ h => h) h hb

/-- Invariant of a plain fold, depending on the processed prefix. -/
theorem foldl_inv_pre {α β : Type} {f : β → α → β} (P : List α → β → Prop) (l : List α) (b : β)
    (hb : P [] b) (hs : ∀ pre a b, a ∈ l → P pre b → P (pre ++ [a]) (f b a)) : P l (l.foldl f b) := by
  have key : ∀ (l' pre : List α) (b : β), (∀ a ∈ l', a ∈ l) → P pre b → P (pre ++ l') (l'.foldl f b) := by
    intro l'
    induction l' with
    | nil => intro pre b _ hp; simpa using hp
    | cons a l' ih =>
      intro pre b hm hp
      have := ih (pre ++ [a]) (f b a) (fun x hx => hm x (by simp [hx])) (hs pre a b (hm a (by simp)) hp)
      simpa using this
  simpa using key l [] b (fun _ h => h) hb

theorem forall₂_mem_left {α β : Type} {R : α → β → Prop} {l : List α} {r : List β} (h : List.Forall₂ R l r)
    {a : α} (ha : a ∈ l) : ∃ b ∈ r, R a b := by
  induction h with
  | nil => simp at ha
  | cons hab _ ih =>
    rcases List.mem_cons.1 ha with rfl | ha
    · exact ⟨_, by simp, hab⟩
    · obtain ⟨b, hb, hr⟩ := ih ha; exact ⟨b, by simp [hb], hr⟩

theorem forall₂_mem_right {α β : Type} {R : α → β → Prop} {l : List α} {r : List β} (h : List.Forall₂ R l r)
    {b : β} (hb : b ∈ r) : ∃ a ∈ l, R a b := by
  induction h with
  | nil => simp at hb
  | cons hab _ ih =>
    rcases List.mem_cons.1 hb with rfl | hb
    · exact ⟨_, by simp, hab⟩
    · obtain ⟨a, ha, hr⟩ := ih hb; exact ⟨a, by simp [ha], hr⟩

theorem forall₂_imp_left {α β : Type} {R S : α → β → Prop} {l : List α} {r : List β} (h : List.Forall₂ R l r)
    (hi : ∀ a ∈ l, ∀ b, R a b → S a b) : List.Forall₂ S l r := by
  induction h with
  | nil => exact .nil
  | cons h1 _ ih => exact .cons (hi _ (by simp) _ h1) (ih (fun a ha => hi a (by simp [ha])))

/-! ### product -/

theorem mem_product {α : Type} (ls : List (List α)) (x : List α) :
    x ∈ product ls ↔ List.Forall₂ (fun a l => a ∈ l) x ls := by
  induction ls generalizing x with
  | nil => simp [product]
  | cons l ls ih =>
    simp only [product, List.mem_flatMap, List.mem_map]
    constructor
    · rintro ⟨a, ha, t, ht, rfl⟩
      exact .cons ha ((ih t).1 ht)
    · intro h
      cases h with
      | cons h1 h2 => exact ⟨_, h1, _, (ih _).2 h2, rfl⟩

/-! ### dedup -/

theorem dedupBy_eq {α κ : Type} [DecidableEq κ] (f : α → κ) (l : List α) :
    dedupBy f l = l.foldl (fun o i => if o.any (fun p => decide (f i = f p)) then o else o ++ [i]) [] := by
  have key : ∀ (l : List α) (o : List α),
      ((l.map (fun i => (i, f i))).foldl
        (fun (o : List (α × κ)) ik => if o.any (fun p => decide (ik.2 = p.2)) then o else o ++ [ik])
          (o.map (fun i => (i, f i)))).map Prod.fst =
      l.foldl (fun o i => if o.any (fun p => decide (f i = f p)) then o else o ++ [i]) o := by
    intro l
    induction l with
    | nil => intro o; simp [Function.comp_def]
    | cons a l ih =>
      intro o
      simp only [List.map_cons, List.foldl_cons, List.any_map, Function.comp_def]
      split
      · exact ih o
      · have := ih (o ++ [a])
        simpa using this
  exact key l []

/-- `dedupBy` keeps exactly one element per key, the first. -/
theorem dedupBy_spec {α κ : Type} [DecidableEq κ] (f : α → κ) (l : List α) :
    (dedupBy f l).Sublist l ∧ ((dedupBy f l).map f).Nodup ∧ (∀ a ∈ l, ∃ b ∈ dedupBy f l, f b = f a) := by
  rw [dedupBy_eq]
  refine foldl_inv_pre
    (P := fun pre o => o.Sublist pre ∧ (o.map f).Nodup ∧ (∀ a ∈ pre, ∃ b ∈ o, f b = f a)) l [] (by simp) ?_
  rintro pre a o - ⟨h1, h2, h3⟩
  split
  · rename_i h
    refine ⟨h1.trans (List.sublist_append_left _ _), h2, ?_⟩
    intro x hx
    rcases List.mem_append.1 hx with hx | hx
    · exact h3 x hx
    · simp only [List.mem_singleton] at hx
      subst hx
      simp only [List.any_eq_true, decide_eq_true_eq] at h
      obtain ⟨b, hb, e⟩ := h
      exact ⟨b, hb, e.symm⟩
  · rename_i h
    simp only [List.any_eq_true, decide_eq_true_eq, not_exists, not_and] at h
    refine ⟨h1.append (List.Sublist.refl _), ?_, ?_⟩
    · rw [List.map_append, List.nodup_append]
      refine ⟨h2, by simp, ?_⟩
      rintro x hx y hy rfl
      simp only [List.map_cons, List.map_nil, List.mem_singleton] at hy
      subst hy
      obtain ⟨b, hb, e⟩ := List.mem_map.1 hx
      exact h b hb e.symm
    · intro x hx
      rcases List.mem_append.1 hx with hx | hx
      · obtain ⟨b, hb, e⟩ := h3 x hx
        exact ⟨b, by simp [hb], e⟩
      · simp only [List.mem_singleton] at hx
        subst hx
        exact ⟨x, by simp, rfl⟩

theorem dedupBy_ne_nil {α κ : Type} [DecidableEq κ] (f : α → κ) {l : List α} (h : l ≠ []) : dedupBy f l ≠ [] := by
  obtain ⟨a, ha⟩ := List.exists_mem_of_ne_nil l h
  obtain ⟨b, hb, _⟩ := (dedupBy_spec f l).2.2 a ha
  exact List.ne_nil_of_mem hb

end Verif
