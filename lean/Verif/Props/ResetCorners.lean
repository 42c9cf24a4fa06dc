import Verif.Props.Reset

/-!
C26: the range of a reset expression is exactly spanned by its values at the corners of the set of states, and there is a range
exactly if the expression has a value at all corners.
-/

set_option autoImplicit false
set_option linter.unusedSectionVars false

namespace Verif.Props
open Verif.Rst Verif.Rst.Spec Verif.Proofs.Rst

variable {K : Type} [Field K] [LinearOrder K]

/-- A corner of the set of states: every variable is at an end of its range. -/
def Corner (D : Dict Text (K × K)) (c : Text → Option K) : Prop :=
  ∀ t, match Dict.get? D t with
    | some r => c t = some r.1 ∨ c t = some r.2
    | none => c t = none

/-- The converse of `eval_subst`. -/
theorem eval_subst_conv (sh : K → Text) (rd : Text → Option K) (D : Dict Text (K × K)) (syms : Syms K) (comb : List K) (e : Ex)
    (hlen : comb.length = syms.length) (hsub : ∀ kv ∈ syms, kv ∈ D)
    (h0 : ∀ kv ∈ syms, kv.1 ≠ []) (h1 : ∀ kv ∈ syms, ∀ t, Occurs t e → kv.1 <:+: t → t = kv.1)
    (h2 : ∀ kv ∈ syms, ∀ v ∈ comb, ¬ kv.1 <:+: sh v) (h3 : ∀ v ∈ comb, rd (sh v) = some v) (hp : NoVarPow D e) (y : K)
    (hy : (substAll sh syms comb e).eval rd = .ok y) : value rd (combVal syms comb) e = some y := by
  have hcomb : ∀ t v, combVal syms comb t = some v → v ∈ comb := by
    intro t v hv
    simp only [combVal, Option.map_eq_some_iff] at hv
    obtain ⟨sv, hsv, rfl⟩ := hv
    exact (List.of_mem_zip (a := sv.1) (b := sv.2) (by simpa using List.mem_of_find?_eq_some hsv)).2
  have hl : ∀ (a b : Ex), (∀ kv ∈ syms, ∀ t, t ∈ a.atoms ++ b.atoms → kv.1 <:+: t → t = kv.1) →
      (∀ kv ∈ syms, ∀ t, Occurs t a → kv.1 <:+: t → t = kv.1) ∧ (∀ kv ∈ syms, ∀ t, Occurs t b → kv.1 <:+: t → t = kv.1) :=
    fun a b h => ⟨fun kv hkv t ht => h kv hkv t (List.mem_append_left _ ht), fun kv hkv t ht => h kv hkv t (List.mem_append_right _ ht)⟩
  induction e generalizing y with
  | atom t =>
    rw [substAll_atom sh syms comb t hlen h0 (fun kv hkv => h1 kv hkv t (by simp [Occurs, Ex.atoms])) h2] at hy
    simp only [value]
    cases hc : combVal syms comb t with
    | none =>
      rw [hc] at hy
      simp only [Ex.eval, readNum] at hy
      cases hr : rd t with
      | none => rw [hr] at hy; simp at hy
      | some x => rw [hr] at hy; simpa using hy
    | some v =>
      rw [hc] at hy
      simp only [Ex.eval, readNum, h3 v (hcomb t v hc)] at hy
      simpa using hy
  | neg a ih =>
    rw [substAll_neg, Ex.eval] at hy
    obtain ⟨x, hx, rfl⟩ := (map_ok_iff _ _ _).1 hy
    simp only [value, ih h1 hp x hx, Option.map_some]
  | pow a n ih =>
    have : ∀ t, substAll sh syms comb a ≠ .atom ('-' :: t) := by
      intro t he
      obtain ⟨u, rfl⟩ := substAll_eq_atom sh syms comb a _ he
      obtain ⟨hu1, hu2⟩ := hp.2 u rfl
      rw [substAll_atom_not sh syms comb u (fun kv hkv hi => hu1 (by
        rw [h1 kv hkv u (by simp [Occurs, Ex.atoms]) hi]
        exact List.mem_map_of_mem (hsub kv hkv)))] at he
      injection he with he
      exact hu2 t he
    rw [substAll_pow, eval_pow _ _ _ this] at hy
    obtain ⟨x, hx, rfl⟩ := (map_ok_iff _ _ _).1 hy
    simp only [value, ih h1 hp.1 x hx, Option.map_some]
  | add a b iha ihb =>
    obtain ⟨ha, hb⟩ := hl a b h1
    rw [substAll_add, Ex.eval] at hy
    obtain ⟨x, hx, hy⟩ := (bind_ok_iff _ _ _).1 hy
    obtain ⟨z, hz, rfl⟩ := (map_ok_iff _ _ _).1 hy
    simp only [value, iha ha hp.1 x hx, ihb hb hp.2 z hz, Option.map_some, Option.bind_some]
  | sub a b iha ihb =>
    obtain ⟨ha, hb⟩ := hl a b h1
    rw [substAll_sub, Ex.eval] at hy
    obtain ⟨x, hx, hy⟩ := (bind_ok_iff _ _ _).1 hy
    obtain ⟨z, hz, rfl⟩ := (map_ok_iff _ _ _).1 hy
    simp only [value, iha ha hp.1 x hx, ihb hb hp.2 z hz, Option.map_some, Option.bind_some]
  | mul a b iha ihb =>
    obtain ⟨ha, hb⟩ := hl a b h1
    rw [substAll_mul, Ex.eval] at hy
    obtain ⟨x, hx, hy⟩ := (bind_ok_iff _ _ _).1 hy
    obtain ⟨z, hz, rfl⟩ := (map_ok_iff _ _ _).1 hy
    simp only [value, iha ha hp.1 x hx, ihb hb hp.2 z hz, Option.map_some, Option.bind_some]
  | div a b iha ihb =>
    obtain ⟨ha, hb⟩ := hl a b h1
    rw [substAll_div, Ex.eval] at hy
    obtain ⟨x, hx, hy⟩ := (bind_ok_iff _ _ _).1 hy
    obtain ⟨z, hz, hy⟩ := (bind_ok_iff _ _ _).1 hy
    simp only [value, iha ha hp.1 x hx, ihb hb hp.2 z hz, Option.bind_some]
    unfold divide at hy
    split at hy
    · cases hy
    · rename_i h
      rw [if_neg h]
      cases hy
      rfl

theorem bounds_attained (l : List K) (r : K × K) (h : bounds l = .ok r) : r.1 ∈ l ∧ r.2 ∈ l := by
  cases l with
  | nil => simp [bounds] at h
  | cons a l =>
    simp only [bounds, Except.ok.injEq] at h
    subst h
    have hop : ∀ (f : K → K → K), (∀ x y, f x y = x ∨ f x y = y) → ∀ (l : List K) (a : K), l.foldl f a ∈ a :: l := by
      intro f hf l
      induction l with
      | nil => intro a; simp
      | cons b l ih =>
        intro a
        rw [List.foldl_cons]
        rcases hf a b with h | h <;> rw [h]
        · rcases List.mem_cons.1 (ih a) with h' | h'
          · rw [h']; simp
          · simp [h']
        · exact List.mem_cons_of_mem _ (ih b)
    exact ⟨hop min min_choice l a, hop max max_choice l a⟩

/-- The value at a corner is what the text of the expression evaluates to after the replacements, and conversely. -/
theorem eval_corner (sh : K → Text) (rd : Text → Option K) (D : Dict Text (K × K)) (e : Ex) (hR : Readable sh rd D e) (hP : NoVarPow D e)
    (c : Text → Option K) (hc : Corner D c) (comb : List K)
    (hcomb : List.Forall₂ (fun (kv : Text × (K × K)) v => c kv.1 = some v) (symbols D e) comb) (y : K) :
    (substAll sh (symbols D e) comb e).eval rd = .ok y ↔ value rd c e = some y := by
  obtain ⟨hnd, h0, h1, h2⟩ := hR
  have hsub : ∀ kv ∈ symbols D e, kv ∈ D := fun kv hkv => (List.mem_filter.1 hkv).1
  have hsnd : ((symbols D e).map Prod.fst).Nodup := hnd.sublist (List.filter_sublist.map _)
  have hmem : ∀ v ∈ comb, ∃ kv ∈ D, v = kv.2.1 ∨ v = kv.2.2 := by
    intro v hvm
    obtain ⟨kv, hkv, hkc⟩ := forall₂_mem_right hcomb hvm
    refine ⟨kv, hsub kv hkv, ?_⟩
    have := hc kv.1
    rw [Dict.get?_of_mem hnd (show (kv.1, kv.2) ∈ D from hsub kv hkv)] at this
    rcases this with h | h
    · rw [h] at hkc; exact .inl (Option.some.inj hkc).symm
    · rw [h] at hkc; exact .inr (Option.some.inj hkc).symm
  have a2 : ∀ kv ∈ symbols D e, ∀ v ∈ comb, ¬ kv.1 <:+: sh v := by
    intro kv hkv v hvm
    obtain ⟨kv', hkv', hk⟩ := hmem v hvm
    exact (h2 kv (hsub kv hkv) kv' hkv' v hk).1
  have a3 : ∀ v ∈ comb, rd (sh v) = some v := by
    intro v hvm
    obtain ⟨kv', hkv', hk⟩ := hmem v hvm
    exact (h2 kv' hkv' kv' hkv' v hk).2
  have hv : value rd (combVal (symbols D e) comb) e = value rd c e := by
    refine value_congr rd _ _ e (fun t ht => combVal_corner c _ hsnd comb hcomb t ?_)
    by_cases hin : ∃ kv ∈ D, kv.1 = t
    · obtain ⟨kv, hkv, rfl⟩ := hin
      refine .inl ⟨kv, List.mem_filter.2 ⟨hkv, ?_⟩, rfl⟩
      simp only [List.any_eq_true, decide_eq_true_eq]
      exact ⟨kv.1, ht, List.infix_refl _⟩
    · refine .inr ?_
      have := hc t
      have hnone : Dict.get? D t = none := by
        rw [Dict.get?_none_iff]
        intro hm
        obtain ⟨kv, hkv, he⟩ := List.mem_map.1 hm
        exact hin ⟨kv, hkv, he⟩
      rwa [hnone] at this
  rw [← hv]
  exact ⟨eval_subst_conv sh rd D _ comb e hcomb.length_eq.symm hsub (fun kv hkv => h0 kv (hsub kv hkv)) (fun kv hkv => h1 kv (hsub kv hkv)) a2 a3 hP y,
    eval_subst sh rd D _ comb e hcomb.length_eq.symm hsub (fun kv hkv => h0 kv (hsub kv hkv)) (fun kv hkv => h1 kv (hsub kv hkv)) a2 a3 hP y⟩

/-- Every corner gives a combination. -/
theorem comb_of_corner (D : Dict Text (K × K)) (hnd : (D.map Prod.fst).Nodup) (e : Ex) (c : Text → Option K) (hc : Corner D c) :
    ∃ comb ∈ combinations (symbols D e), List.Forall₂ (fun (kv : Text × (K × K)) v => c kv.1 = some v) (symbols D e) comb := by
  have key : ∀ S : Syms K, (∀ kv ∈ S, kv ∈ D) → ∃ comb ∈ combinations S, List.Forall₂ (fun (kv : Text × (K × K)) v => c kv.1 = some v) S comb := by
    intro S
    induction S with
    | nil => intro _; exact ⟨[], by simp [combinations, product], .nil⟩
    | cons kv S ih =>
      intro h
      obtain ⟨comb, hm, hf⟩ := ih fun kv hkv => h kv (List.mem_cons_of_mem _ hkv)
      have hk := hc kv.1
      rw [Dict.get?_of_mem hnd (show (kv.1, kv.2) ∈ D from h kv List.mem_cons_self)] at hk
      unfold combinations at hm ⊢
      rw [mem_product] at hm
      rcases hk with hk | hk
      · exact ⟨kv.2.1 :: comb, (mem_product _ _).2 (.cons (by simp) hm), .cons hk hf⟩
      · exact ⟨kv.2.2 :: comb, (mem_product _ _).2 (.cons (by simp) hm), .cons hk hf⟩
  exact key _ fun kv hkv => (List.mem_filter.1 hkv).1

/-- Every combination comes from a corner. -/
theorem corner_of_comb (D : Dict Text (K × K)) (hnd : (D.map Prod.fst).Nodup) (e : Ex) (comb : List K) (hm : comb ∈ combinations (symbols D e)) :
    ∃ c, Corner D c ∧ List.Forall₂ (fun (kv : Text × (K × K)) v => c kv.1 = some v) (symbols D e) comb := by
  have key : ∀ (S : Syms K) (comb : List K), (S.map Prod.fst).Nodup → (∀ kv ∈ S, kv ∈ D) →
      List.Forall₂ (fun (a : K) (c : Text × (K × K)) => a ∈ [c.2.1, c.2.2]) comb S →
      ∃ c, Corner D c ∧ List.Forall₂ (fun (kv : Text × (K × K)) v => c kv.1 = some v) S comb := by
    intro S comb hS hSD h
    induction h with
    | nil =>
      refine ⟨fun t => (Dict.get? D t).map Prod.fst, fun t => ?_, .nil⟩
      cases h : Dict.get? D t with
      | none => simp [h]
      | some r => simp [h]
    | @cons v kv comb S hv1 hrest ih =>
      simp only [List.map_cons, List.nodup_cons] at hS
      obtain ⟨c, hc, hcS⟩ := ih hS.2 (fun kv h => hSD kv (by simp [h]))
      have hkvD : (kv.1, kv.2) ∈ D := hSD kv (by simp)
      have hv1 : v = kv.2.1 ∨ v = kv.2.2 := by simpa using hv1
      refine ⟨Spec.upd c kv.1 v, fun t => ?_, .cons (by simp [Spec.upd]) ?_⟩
      · by_cases ht : t = kv.1
        · subst ht
          rw [Dict.get?_of_mem hnd hkvD]
          rcases hv1 with rfl | rfl
          · exact .inl (by simp [Spec.upd])
          · exact .inr (by simp [Spec.upd])
        · have := hc t
          simpa [Spec.upd, ht] using this
      · refine forall₂_imp_left hcS ?_
        intro kv' hm v' hh
        have hk : kv'.1 ≠ kv.1 := fun hk => hS.1 (hk ▸ List.mem_map_of_mem hm)
        simpa [Spec.upd, hk] using hh
  unfold combinations at hm
  rw [mem_product, List.forall₂_map_right_iff] at hm
  exact key _ comb (hnd.sublist (List.filter_sublist.map _)) (fun kv hkv => (List.mem_filter.1 hkv).1) hm

/-- **C26** (partial: names and numbers can be told apart, no power of a variable). The range of a reset expression is exactly
spanned by its values at the corners: all of them are defined and in the range, and both ends are such values. -/
theorem C26_corners_partial (sh : K → Text) (rd : Text → Option K) (D : Dict Text (K × K)) (e : Ex) (hR : Readable sh rd D e)
    (hP : NoVarPow D e) (r : K × K) (hr : resetRange sh rd D e = .ok r) :
    (∀ c, Corner D c → ∃ y, value rd c e = some y ∧ r.1 ≤ y ∧ y ≤ r.2) ∧
    (∃ c, Corner D c ∧ value rd c e = some r.1) ∧ (∃ c, Corner D c ∧ value rd c e = some r.2) := by
  obtain ⟨vs, h1, h2⟩ := (bind_ok_iff _ _ _).1 hr
  have hf := (mapM_ok_iff _ _ _).1 h1
  refine ⟨?_, ?_⟩
  · intro c hc
    obtain ⟨comb, hm, hcomb⟩ := comb_of_corner D hR.1 e c hc
    obtain ⟨y, hy, he⟩ := forall₂_mem_left hf hm
    exact ⟨y, (eval_corner sh rd D e hR hP c hc comb hcomb y).1 he, bounds_spec vs r h2 y hy⟩
  · have hex : ∀ y ∈ vs, ∃ c, Corner D c ∧ value rd c e = some y := by
      intro y hy
      obtain ⟨comb, hm, he⟩ := forall₂_mem_right hf hy
      obtain ⟨c, hc, hcomb⟩ := corner_of_comb D hR.1 e comb hm
      exact ⟨c, hc, (eval_corner sh rd D e hR hP c hc comb hcomb y).1 he⟩
    obtain ⟨a, b⟩ := bounds_attained vs r h2
    exact ⟨hex _ a, hex _ b⟩

/-- **C26**: there is a range exactly if the expression has a value at all corners; an expression that divides by zero at a
corner raises an error. -/
theorem C26_defined_partial (sh : K → Text) (rd : Text → Option K) (D : Dict Text (K × K)) (e : Ex) (hR : Readable sh rd D e) (hP : NoVarPow D e) :
    (∃ r, resetRange sh rd D e = .ok r) ↔ ∀ c, Corner D c → ∃ y, value rd c e = some y := by
  constructor
  · rintro ⟨r, hr⟩ c hc
    obtain ⟨y, hy, _⟩ := (C26_corners_partial sh rd D e hR hP r hr).1 c hc
    exact ⟨y, hy⟩
  · intro h
    have hall : ∀ comb ∈ combinations (symbols D e), ∃ y, (substAll sh (symbols D e) comb e).eval rd = .ok y := by
      intro comb hm
      obtain ⟨c, hc, hcomb⟩ := corner_of_comb D hR.1 e comb hm
      obtain ⟨y, hy⟩ := h c hc
      exact ⟨y, (eval_corner sh rd D e hR hP c hc comb hcomb y).2 hy⟩
    have hmap : ∀ (l : List (List K)), (∀ comb ∈ l, ∃ y, (substAll sh (symbols D e) comb e).eval rd = .ok y) →
        ∃ vs, l.mapM (fun comb => (substAll sh (symbols D e) comb e).eval rd) = .ok vs := by
      intro l hl
      induction l with
      | nil => exact ⟨[], rfl⟩
      | cons a l ih =>
        obtain ⟨y, hy⟩ := hl a List.mem_cons_self
        obtain ⟨vs, hvs⟩ := ih fun b hb => hl b (List.mem_cons_of_mem _ hb)
        exact ⟨y :: vs, (mapM_ok_iff _ _ _).2 (.cons hy ((mapM_ok_iff _ _ _).1 hvs))⟩
    obtain ⟨vs, hvs⟩ := hmap _ hall
    have hne : vs ≠ [] := by
      rintro rfl
      have hf := (mapM_ok_iff _ _ _).1 hvs
      have hnil : combinations (symbols D e) = [] := by
        cases hf' : combinations (symbols D e) with
        | nil => rfl
        | cons a l => rw [hf'] at hf; cases hf
      have hcorner : Corner D (fun t => (Dict.get? D t).map Prod.fst) := fun t => by
        cases h : Dict.get? D t with
        | none => simp [h]
        | some r => simp [h]
      obtain ⟨comb, hm, _⟩ := comb_of_corner D hR.1 e _ hcorner
      rw [hnil] at hm
      cases hm
    cases vs with
    | nil => exact absurd rfl hne
    | cons v vs => exact ⟨_, (bind_ok_iff _ _ _).2 ⟨_, hvs, rfl⟩⟩

/-- `x / v` with `x` in `[-1, 2]`, `v` in `[1, 5]` has a range; `x / (v - v)` is an error. -/
example : Readable exSh exRd exD (.div (.atom exX) (.atom exV)) ∧ NoVarPow exD (.div (.atom exX) (.atom exV)) ∧
    resetRange exSh exRd exD (.div (.atom exX) (.atom exV)) = .ok (-1, 2) ∧
    resetRange exSh exRd exD (.div (.atom exX) (.sub (.atom exV) (.atom exV))) = .error "ZeroDivisionError" := by
  refine ⟨⟨by decide +kernel, by decide +kernel, ?_, ?_⟩, ⟨trivial, trivial⟩, by decide +kernel, by decide +kernel⟩
  · have h : ∀ kv ∈ exD, ∀ t ∈ (Ex.div (.atom exX) (.atom exV)).atoms, kv.1 <:+: t → t = kv.1 := by decide +kernel
    exact h
  · have h : ∀ kv ∈ exD, ∀ kv' ∈ exD, (¬ kv.1 <:+: exSh kv'.2.1 ∧ exRd (exSh kv'.2.1) = some kv'.2.1) ∧
          (¬ kv.1 <:+: exSh kv'.2.2 ∧ exRd (exSh kv'.2.2) = some kv'.2.2) := by decide +kernel
    intro kv hkv kv' hkv' v hv
    rcases hv with rfl | rfl
    · exact (h kv hkv kv' hkv').1
    · exact (h kv hkv kv' hkv').2

/-- A reset of a mode to a member of a class that is not one of the modes of the decision logic does nothing, and nobody is told: the old mode is
the only destination, although the program assigned another one; with a known class it is the destination. -/
theorem C26_unknown_class_violated (known : Bool) :
    applyReset exSh exRd ["x"] ["agent_mode"] ["Normal"] ([0], [1])
      [(⟨"agent_mode", .member known "Brake", (), []⟩ : Item ℚ String Unit)] =
      .ok ([[if known then "Brake" else "Normal"]], ([0], [1])) := by
  cases known <;> decide +kernel

end Verif.Props
