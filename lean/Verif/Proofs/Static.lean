import Verif.Spec.Static
import Verif.Proofs.Plot
import Verif.Proofs.Plot2
import Mathlib.Tactic.Linarith

set_option autoImplicit false
set_option linter.unusedSectionVars false

namespace Verif.Static
open Verif.Spec Verif.ATree Verif.Plot Verif.Static.Spec

variable {K : Type} [Field K] [LinearOrder K] [IsStrictOrderedRing K]

theorem mapM_ex {α β : Type} (f : α → Except String β) : ∀ (l : List α), (∀ a ∈ l, ∃ b, f a = .ok b) → ∃ r, l.mapM f = .ok r := by
  intro l h
  induction l with
  | nil => exact ⟨[], (mapM_ok_iff _ _ _).2 .nil⟩
  | cons a l ih =>
    obtain ⟨b, hb⟩ := h a (List.mem_cons_self ..)
    obtain ⟨r, hr⟩ := ih (fun a ha => h a (List.mem_cons_of_mem _ ha))
    exact ⟨b :: r, (mapM_ok_iff _ _ _).2 (.cons hb ((mapM_ok_iff _ _ _).1 hr))⟩

theorem at2_iff (x y : Nat) (r : Row K) (p : K × K) : at2 x y r = .ok p ↔ Plot.Spec.At x y r p := by
  unfold at2 Plot.Spec.At
  obtain ⟨p1, p2⟩ := p
  cases hx : r[x]? <;> cases hy : r[y]? <;> simp

theorem at2_total {x y : Nat} {r : Row K} (hx : x < r.length) (hy : y < r.length) : ∃ p, at2 x y r = .ok p :=
  ⟨(r[x], r[y]), (at2_iff _ _ _ _).2 ⟨List.getElem?_eq_getElem hx, List.getElem?_eq_getElem hy⟩⟩

theorem at3_iff (x y z : Nat) (r : Row K) (p : K × K × K) : at3 x y z r = .ok p ↔ Plot3d.Spec.At x y z r p := by
  unfold at3 Plot3d.Spec.At
  obtain ⟨p1, p2, p3⟩ := p
  cases hx : r[x]? <;> cases hy : r[y]? <;> cases hz : r[z]? <;> simp

theorem pairUp_spec : ∀ (tr : List (Row K)) (data : List (Row K × Row K)), pairUp tr = .ok data →
    tr.length = 2 * data.length ∧ ∀ k lo hi, data[k]? = some (lo, hi) ↔ Plot.Spec.Rect tr k lo hi
  | [], data, h => by
    cases h
    exact ⟨rfl, fun k lo hi => by simp [Plot.Spec.Rect]⟩
  | [_], data, h => by cases h
  | a :: b :: l, data, h => by
    unfold pairUp at h
    obtain ⟨r, hr, rfl⟩ := (map_ok_iff _ _ _).1 h
    obtain ⟨h1, h2⟩ := pairUp_spec l r hr
    refine ⟨by simp [h1]; omega, fun k lo hi => ?_⟩
    cases k with
    | zero => simp [Plot.Spec.Rect]
    | succ k =>
      have e1 : 2 * (k + 1) = 2 * k + 2 := by omega
      have := h2 k lo hi
      simp only [Plot.Spec.Rect, e1, List.getElem?_cons_succ] at this ⊢
      exact this

theorem pairUp_total : ∀ (tr : List (Row K)), tr.length % 2 = 0 → ∃ data, pairUp tr = .ok data
  | [], _ => ⟨[], rfl⟩
  | [_], h => by simp at h
  | a :: b :: l, h => by
    obtain ⟨r, hr⟩ := pairUp_total l (by simp at h; omega)
    exact ⟨(a, b) :: r, by unfold pairUp; rw [hr]; rfl⟩

theorem mem_pairUp {tr : List (Row K)} {data : List (Row K × Row K)} (h : pairUp tr = .ok data) (d : Row K × Row K) :
    d ∈ data ↔ ∃ k, Plot.Spec.Rect tr k d.1 d.2 := by
  rw [List.mem_iff_getElem?]
  exact exists_congr fun k => (pairUp_spec tr data h).2 k d.1 d.2

theorem corners_spec {bl : Bool} {x : Nat} {ys : List Nat} {data : List (Row K × Row K)} {cs : List (Bool × (K × K) × (K × K))}
    (h : corners bl x ys data = .ok cs) (e : Bool × (K × K) × (K × K)) :
    e ∈ cs ↔ e.1 = bl ∧ ∃ d ∈ data, ∃ y ∈ ys, Plot.Spec.At x y d.1 e.2.1 ∧ Plot.Spec.At x y d.2 e.2.2 := by
  have hf := (mapM_ok_iff _ _ _).1 h
  constructor
  · intro he
    obtain ⟨q, hq, hqe⟩ := forall₂_mem_right hf he
    obtain ⟨d, hd, hq⟩ := List.mem_flatMap.1 hq
    obtain ⟨y, hy, rfl⟩ := List.mem_map.1 hq
    obtain ⟨a, ha, hqe⟩ := (bind_ok_iff _ _ _).1 hqe
    obtain ⟨b, hb, rfl⟩ := (map_ok_iff _ _ _).1 hqe
    exact ⟨rfl, d, hd, y, hy, (at2_iff _ _ _ _).1 ha, (at2_iff _ _ _ _).1 hb⟩
  · rintro ⟨rfl, d, hd, y, hy, ha, hb⟩
    obtain ⟨c, hc, hqe⟩ := forall₂_mem_left hf (List.mem_flatMap.2 ⟨d, hd, List.mem_map.2 ⟨y, hy, rfl⟩⟩)
    obtain ⟨a, ha', hqe⟩ := (bind_ok_iff _ _ _).1 hqe
    obtain ⟨b, hb', rfl⟩ := (map_ok_iff _ _ _).1 hqe
    rw [(at2_iff _ _ _ _).2 ha] at ha'
    rw [(at2_iff _ _ _ _).2 hb] at hb'
    cases ha'; cases hb'
    exact hc

theorem corners_total (bl : Bool) {x : Nat} {ys : List Nat} {data : List (Row K × Row K)}
    (h : ∀ d ∈ data, ∀ y ∈ ys, (x < d.1.length ∧ y < d.1.length) ∧ (x < d.2.length ∧ y < d.2.length)) : ∃ cs, corners bl x ys data = .ok cs := by
  refine mapM_ex _ _ fun q hq => ?_
  obtain ⟨d, hd, hq⟩ := List.mem_flatMap.1 hq
  obtain ⟨y, hy, rfl⟩ := List.mem_map.1 hq
  obtain ⟨⟨h1, h2⟩, h3, h4⟩ := h d hd y hy
  obtain ⟨a, ha⟩ := at2_total h1 h2
  obtain ⟨b, hb⟩ := at2_total h3 h4
  exact ⟨(bl, a, b), (bind_ok_iff _ _ _).2 ⟨a, ha, (map_ok_iff _ _ _).2 ⟨b, hb, rfl⟩⟩⟩

theorem truthy_iff (n : PNode K) : truthy n.hits = true ↔ Hit n := by
  unfold truthy Hit
  cases h : n.hits with
  | none => simp
  | some d => cases d with
    | nil => simp
    | cons e d => simpa using ⟨e.1, e.2, by simp⟩

/-- What is drawn for a node. -/
theorem tubeNode_spec {aid : String} {x : Nat} {ys : List Nat} {n : PNode K} {cs : List (Bool × (K × K) × (K × K))} (h : tubeNode aid x ys n = .ok cs) :
    ∃ tr, Dict.get? n.trace aid = some tr ∧ ∀ bl a b, (bl, a, b) ∈ cs ↔ ∃ k lo hi y, Plot.Spec.Rect tr k lo hi ∧ y ∈ ys ∧ Plot.Spec.At x y lo a ∧
      Plot.Spec.At x y hi b ∧ (bl = true → Hit n ∧ LastRect tr k) := by
  unfold tubeNode at h
  cases ht : Dict.get? n.trace aid with
  | none => rw [ht] at h; cases h
  | some tr =>
    rw [ht] at h
    obtain ⟨data, hd, h⟩ := (bind_ok_iff _ _ _).1 h
    obtain ⟨c1, hc, h⟩ := (bind_ok_iff _ _ _).1 h
    obtain ⟨bs, hb, rfl⟩ := (map_ok_iff _ _ _).1 h
    obtain ⟨hlen, hget⟩ := pairUp_spec tr data hd
    refine ⟨tr, rfl, fun bl a b => ?_⟩
    have hblack : (bl, a, b) ∈ bs ↔ bl = true ∧ Hit n ∧ ∃ k lo hi y, Plot.Spec.Rect tr k lo hi ∧ y ∈ ys ∧ Plot.Spec.At x y lo a ∧ Plot.Spec.At x y hi b ∧ LastRect tr k := by
      by_cases hh : truthy n.hits = true
      · rw [if_pos hh] at hb
        unfold blackOf at hb
        cases hl : data.getLast? with
        | none => rw [hl] at hb; cases hb
        | some d =>
          rw [hl] at hb
          simp only at hb
          rw [corners_spec hb]
          have hne : data ≠ [] := by rintro rfl; simp at hl
          have hpos : 0 < data.length := List.length_pos_iff.2 hne
          have hdl : data[data.length - 1]? = some d := by rw [← hl, List.getLast?_eq_getElem?]
          simp only [List.mem_singleton, exists_eq_left]
          constructor
          · rintro ⟨e, y, hy, h1, h2⟩
            exact ⟨e, (truthy_iff n).1 hh, data.length - 1, d.1, d.2, y, (hget _ _ _).1 hdl, hy, h1, h2, by unfold LastRect; omega⟩
          · rintro ⟨e, _, k, lo, hi, y, hr, hy, h1, h2, hlast⟩
            have hk := (hget _ _ _).2 hr
            unfold LastRect at hlast
            have : k = data.length - 1 := by omega
            rw [this, hdl] at hk
            cases hk
            exact ⟨e, y, hy, h1, h2⟩
      · rw [if_neg hh] at hb
        cases hb
        constructor
        · intro h; cases h
        · rintro ⟨_, h, _⟩; exact absurd ((truthy_iff n).2 h) hh
    rw [List.mem_append, hblack, corners_spec hc]
    constructor
    · rintro (⟨e, d, hd', y, hy, h1, h2⟩ | ⟨e, hh, k, lo, hi, y, hr, hy, h1, h2, hlast⟩)
      · obtain ⟨k, hk⟩ := (mem_pairUp hd d).1 hd'
        simp only at e
        exact ⟨k, d.1, d.2, y, hk, hy, h1, h2, by simp [e]⟩
      · exact ⟨k, lo, hi, y, hr, hy, h1, h2, fun _ => ⟨hh, hlast⟩⟩
    · rintro ⟨k, lo, hi, y, hr, hy, h1, h2, hbl⟩
      cases bl with
      | false => exact .inl ⟨rfl, (lo, hi), (mem_pairUp hd (lo, hi)).2 ⟨k, hr⟩, y, hy, h1, h2⟩
      | true => exact .inr ⟨rfl, (hbl rfl).1, k, lo, hi, y, hr, hy, h1, h2, (hbl rfl).2⟩

/-- A node is drawn if its trace is even, has rows for a violated assertion, and all rows have the dimensions. -/
theorem tubeNode_total {aid : String} {x : Nat} {ys : List Nat} {n : PNode K} {tr : List (Row K)} (ht : Dict.get? n.trace aid = some tr) (he : tr.length % 2 = 0)
    (hne : tr ≠ []) (hrow : ∀ r ∈ tr, x < r.length ∧ ∀ y ∈ ys, y < r.length) : ∃ cs, tubeNode aid x ys n = .ok cs := by
  obtain ⟨data, hd⟩ := pairUp_total tr he
  have hdim : ∀ d ∈ data, ∀ y ∈ ys, (x < d.1.length ∧ y < d.1.length) ∧ (x < d.2.length ∧ y < d.2.length) := by
    intro d hd' y hy
    obtain ⟨k, h1, h2⟩ := (mem_pairUp hd d).1 hd'
    have m1 := hrow _ (List.mem_of_getElem? h1)
    have m2 := hrow _ (List.mem_of_getElem? h2)
    exact ⟨⟨m1.1, m1.2 y hy⟩, m2.1, m2.2 y hy⟩
  obtain ⟨cs, hc⟩ := corners_total false hdim
  have hb : ∃ bs, (if truthy n.hits then blackOf x ys data else .ok []) = .ok bs := by
    by_cases hh : truthy n.hits = true
    · rw [if_pos hh]
      have hlen := (pairUp_spec tr data hd).1
      have : data ≠ [] := by
        rintro rfl
        exact hne (List.length_eq_zero_iff.1 (by simpa using hlen))
      unfold blackOf
      rw [List.getLast?_eq_getLast_of_ne_nil this]
      exact corners_total true fun d hd' => hdim d (by rw [List.mem_singleton.1 hd']; exact List.getLast_mem this)
    · rw [if_neg hh]; exact ⟨[], rfl⟩
  obtain ⟨bs, hb⟩ := hb
  refine ⟨cs ++ bs, ?_⟩
  unfold tubeNode
  rw [ht]
  exact (bind_ok_iff _ _ _).2 ⟨data, hd, (bind_ok_iff _ _ _).2 ⟨cs, hc, (map_ok_iff _ _ _).2 ⟨bs, hb, rfl⟩⟩⟩

/-! ### limits -/

/-- The limits after a list of corners. -/
theorem grow_fold {α : Type} (f g : α → K × K) : ∀ (es : List α) (l l' : Lim K), es.foldl (fun l e => grow l (f e) (g e)) l = l' →
    (l'.1.1 ≤ l.1.1 ∧ l.1.2 ≤ l'.1.2 ∧ l'.2.1 ≤ l.2.1 ∧ l.2.2 ≤ l'.2.2) ∧
    (∀ e ∈ es, l'.1.1 ≤ (f e).1 ∧ (g e).1 ≤ l'.1.2 ∧ l'.2.1 ≤ (f e).2 ∧ (g e).2 ≤ l'.2.2) ∧
    (l'.1.1 = l.1.1 ∨ ∃ e ∈ es, l'.1.1 = (f e).1) ∧ (l'.1.2 = l.1.2 ∨ ∃ e ∈ es, l'.1.2 = (g e).1) ∧
    (l'.2.1 = l.2.1 ∨ ∃ e ∈ es, l'.2.1 = (f e).2) ∧ (l'.2.2 = l.2.2 ∨ ∃ e ∈ es, l'.2.2 = (g e).2)
  | [], l, l', h => by
    subst h
    exact ⟨⟨le_refl _, le_refl _, le_refl _, le_refl _⟩, by simp, .inl rfl, .inl rfl, .inl rfl, .inl rfl⟩
  | e :: es, l, l', h => by
    obtain ⟨⟨a1, a2, a3, a4⟩, hm, c1, c2, c3, c4⟩ := grow_fold f g es _ l' h
    simp only [grow] at a1 a2 a3 a4 c1 c2 c3 c4
    refine ⟨⟨a1.trans (min_le_right _ _), (le_max_right _ _).trans a2, a3.trans (min_le_right _ _), (le_max_right _ _).trans a4⟩, ?_, ?_, ?_, ?_, ?_⟩
    · intro e' he'
      rcases List.mem_cons.1 he' with rfl | he'
      · exact ⟨a1.trans (min_le_left _ _), (le_max_left _ _).trans a2, a3.trans (min_le_left _ _), (le_max_left _ _).trans a4⟩
      · exact hm e' he'
    · rcases c1 with c | ⟨e', he', c⟩
      · rcases min_choice (f e).1 l.1.1 with m | m
        · exact .inr ⟨e, List.mem_cons_self .., c.trans m⟩
        · exact .inl (c.trans m)
      · exact .inr ⟨e', List.mem_cons_of_mem _ he', c⟩
    · rcases c2 with c | ⟨e', he', c⟩
      · rcases max_choice (g e).1 l.1.2 with m | m
        · exact .inr ⟨e, List.mem_cons_self .., c.trans m⟩
        · exact .inl (c.trans m)
      · exact .inr ⟨e', List.mem_cons_of_mem _ he', c⟩
    · rcases c3 with c | ⟨e', he', c⟩
      · rcases min_choice (f e).2 l.2.1 with m | m
        · exact .inr ⟨e, List.mem_cons_self .., c.trans m⟩
        · exact .inl (c.trans m)
      · exact .inr ⟨e', List.mem_cons_of_mem _ he', c⟩
    · rcases c4 with c | ⟨e', he', c⟩
      · rcases max_choice (g e).2 l.2.2 with m | m
        · exact .inr ⟨e, List.mem_cons_self .., c.trans m⟩
        · exact .inl (c.trans m)
      · exact .inr ⟨e', List.mem_cons_of_mem _ he', c⟩

/-! ### the animation -/

theorem stackLoop_mem (q : List (RTree (PNode K))) : ∀ u, u ∈ stackLoop q ↔ u ∈ RTree.subsL q := by
  induction q using dfs_ind with
  | h0 => intro u; rw [stackLoop]; simp [RTree.subsL]
  | h1 t s ih =>
    intro u
    rw [stackLoop, List.mem_cons, ih u, mem_subsL_step t s]

theorem addDots_spec : ∀ (ds : List (K × Dot K)) (fr : Dict K (List (Dot K))) (τ : K),
    Dict.get? (ds.foldl addDot fr) τ = if (ds.filter fun e => e.1 = τ) = [] then Dict.get? fr τ
      else some ((Dict.get? fr τ).getD [] ++ (ds.filter fun e => e.1 = τ).map Prod.snd)
  | [], fr, τ => by simp
  | e :: ds, fr, τ => by
    rw [List.foldl_cons, addDots_spec ds]
    by_cases h : e.1 = τ
    · subst h
      have : Dict.get? (addDot fr e) e.1 = some ((Dict.get? fr e.1).getD [] ++ [e.2]) := by
        unfold addDot
        cases hg : Dict.get? fr e.1 <;> simp [Dict.get?_set_self]
      rw [this]
      rw [List.filter_cons_of_pos (by simp), if_neg (List.cons_ne_nil _ _)]
      by_cases hn : (ds.filter fun d => d.1 = e.1) = []
      · rw [if_pos hn, hn]; simp
      · rw [if_neg hn]; simp
    · have : Dict.get? (addDot fr e) τ = Dict.get? fr τ := by
        unfold addDot
        cases hg : Dict.get? fr e.1 <;> exact Dict.get?_set_ne _ _ _ _ (by first | exact h | exact fun x => h x.symm)
      rw [this, List.filter_cons_of_neg (by simpa using h)]

theorem foldl_min_spec : ∀ (vs : List K) (a : K), vs.foldl min a ≤ a ∧ (∀ v ∈ vs, vs.foldl min a ≤ v) ∧ (vs.foldl min a = a ∨ vs.foldl min a ∈ vs)
  | [], a => ⟨le_refl _, by simp, .inl rfl⟩
  | v :: vs, a => by
    obtain ⟨h1, h2, h3⟩ := foldl_min_spec vs (min a v)
    refine ⟨h1.trans (min_le_left _ _), fun w hw => ?_, ?_⟩
    · rcases List.mem_cons.1 hw with rfl | hw
      · exact h1.trans (min_le_right _ _)
      · exact h2 w hw
    · rcases h3 with h3 | h3
      · rcases min_choice a v with m | m
        · exact .inl (h3.trans m)
        · exact .inr (by rw [List.foldl_cons, h3, m]; exact List.mem_cons_self ..)
      · exact .inr (List.mem_cons_of_mem _ h3)

theorem foldl_max_spec : ∀ (vs : List K) (a : K), a ≤ vs.foldl max a ∧ (∀ v ∈ vs, v ≤ vs.foldl max a) ∧ (vs.foldl max a = a ∨ vs.foldl max a ∈ vs)
  | [], a => ⟨le_refl _, by simp, .inl rfl⟩
  | v :: vs, a => by
    obtain ⟨h1, h2, h3⟩ := foldl_max_spec vs (max a v)
    refine ⟨(le_max_left _ _).trans h1, fun w hw => ?_, ?_⟩
    · rcases List.mem_cons.1 hw with rfl | hw
      · exact (le_max_right _ _).trans h1
      · exact h2 w hw
    · rcases h3 with h3 | h3
      · rcases max_choice a v with m | m
        · exact .inl (h3.trans m)
        · exact .inr (by rw [List.foldl_cons, h3, m]; exact List.mem_cons_self ..)
      · exact .inr (List.mem_cons_of_mem _ h3)

theorem dot_iff (cos sin rnd : K → K) (e : String × Row K) (τ : K) (d : Dot K) : dot cos sin rnd e = .ok (τ, d) ↔
    ∃ time x y θ v, Reads e.2 time x y θ v ∧ τ = rnd time ∧ d = ⟨(x, y), (cos θ * v, sin θ * v), decide (e.1 = "car2")⟩ := by
  constructor
  · intro h
    unfold dot at h
    split at h
    · next t x y θ v h0 h1 h2 h3 h4 =>
      injection h with h
      injection h with ha hb
      exact ⟨t, x, y, θ, v, ⟨h0, h1, h2, h3, h4⟩, ha.symm, hb.symm⟩
    · cases h
  · rintro ⟨time, x, y, θ, v, ⟨h0, h1, h2, h3, h4⟩, rfl, rfl⟩
    unfold dot
    rw [h0, h1, h2, h3, h4]

theorem mem_rows (t : RTree (PNode K)) (a : String) (r : Row K) : (a, r) ∈ rows t ↔ ∃ u k tr, RTree.Below t u k ∧ (a, tr) ∈ u.label.trace ∧ r ∈ tr := by
  unfold rows
  constructor
  · intro h
    obtain ⟨u, hu, h⟩ := List.mem_flatMap.1 h
    obtain ⟨e, he, h⟩ := List.mem_flatMap.1 h
    obtain ⟨r', hr, h⟩ := List.mem_map.1 h
    cases h
    obtain ⟨k, hk⟩ := mem_bfs_root.1 ((bfs_perm [t]).mem_iff.2 ((stackLoop_mem _ u).1 hu))
    exact ⟨u, k, e.2, hk, he, hr⟩
  · rintro ⟨u, k, tr, hk, he, hr⟩
    exact List.mem_flatMap.2 ⟨u, (stackLoop_mem _ u).2 ((bfs_perm [t]).mem_iff.1 (mem_bfs_root.2 ⟨k, hk⟩)), List.mem_flatMap.2 ⟨(a, tr), he, List.mem_map.2 ⟨r, hr, rfl⟩⟩⟩

/-! ### boxes in space -/

theorem inPoly_box (a b p : K × K × K) : InPoly (box2poly a b) p ↔ InBox3 a b p := by
  unfold InPoly box2poly InBox3
  simp only [List.forall_mem_cons, List.not_mem_nil, false_implies, implies_true, and_true]
  constructor
  · rintro ⟨h1, h2, h3, h4, h5, h6⟩
    refine ⟨⟨?_, ?_⟩, ⟨?_, ?_⟩, ?_, ?_⟩ <;> linarith
  · rintro ⟨⟨h1, h2⟩, ⟨h3, h4⟩, h5, h6⟩
    refine ⟨?_, ?_, ?_, ?_, ?_, ?_⟩ <;> linarith

theorem boxNode_spec {aid : String} {x y z : Nat} {n : PNode K} {Ps : List (Poly K)} (h : boxNode aid x y z n = .ok Ps) :
    ∃ tr, Dict.get? n.trace aid = some tr ∧ ∀ P, P ∈ Ps ↔ ∃ k lo hi a b, Plot.Spec.Rect tr k lo hi ∧ Plot3d.Spec.At x y z lo a ∧ Plot3d.Spec.At x y z hi b ∧ P = box2poly a b := by
  unfold boxNode at h
  cases ht : Dict.get? n.trace aid with
  | none => rw [ht] at h; cases h
  | some tr =>
    rw [ht] at h
    obtain ⟨data, hd, h⟩ := (bind_ok_iff _ _ _).1 h
    have hf := (mapM_ok_iff _ _ _).1 h
    refine ⟨tr, rfl, fun P => ⟨fun hP => ?_, ?_⟩⟩
    · obtain ⟨d, hd', hq⟩ := forall₂_mem_right hf hP
      obtain ⟨a, ha, hq⟩ := (bind_ok_iff _ _ _).1 hq
      obtain ⟨b, hb, rfl⟩ := (map_ok_iff _ _ _).1 hq
      obtain ⟨k, hk⟩ := (mem_pairUp hd d).1 hd'
      exact ⟨k, d.1, d.2, a, b, hk, (at3_iff _ _ _ _ _).1 ha, (at3_iff _ _ _ _ _).1 hb, rfl⟩
    · rintro ⟨k, lo, hi, a, b, hr, ha, hb, rfl⟩
      obtain ⟨c, hc, hq⟩ := forall₂_mem_left hf ((mem_pairUp hd (lo, hi)).2 ⟨k, hr⟩)
      obtain ⟨a', ha', hq⟩ := (bind_ok_iff _ _ _).1 hq
      obtain ⟨b', hb', rfl⟩ := (map_ok_iff _ _ _).1 hq
      rw [(at3_iff _ _ _ _ _).2 ha] at ha'
      rw [(at3_iff _ _ _ _ _).2 hb] at hb'
      cases ha'; cases hb'
      exact hc

end Verif.Static
