import Verif.Spec.Reset
import Verif.Proofs.Rect
import Verif.Proofs.Contains
import Mathlib.Tactic.Ring
import Mathlib.Tactic.Linarith

/-! Lemmas about resets of rectangles. -/

set_option autoImplicit false
set_option linter.unusedSectionVars false

namespace Verif.Proofs.Rst

open Verif.Rst Verif.Rst.Spec

/-! ### texts -/

theorem replaceText_nil (s new : Text) (n : Nat) : replaceText s new n [] = [] := by
  cases n <;> rfl

theorem replaceText_not (s new : Text) (n : Nat) (t : Text) (h : ¬ s <:+: t) : replaceText s new n t = t := by
  induction n generalizing t with
  | zero => rfl
  | succ n ih =>
    cases t with
    | nil => rfl
    | cons c cs =>
      have h1 : ¬ s <+: c :: cs := fun hp => h hp.isInfix
      have h2 : ¬ s <:+: cs := fun hi => h (hi.trans (List.suffix_cons c cs).isInfix)
      simp only [replaceText, if_neg h1, ih cs h2]

theorem replaceText_self (s new : Text) (h : s ≠ []) : replaceText s new s.length s = new := by
  cases s with
  | nil => exact absurd rfl h
  | cons c cs =>
    simp only [List.length_cons, replaceText]
    rw [if_pos (List.prefix_refl _)]
    simp [replaceText_nil]

section
variable {K : Type} [Field K] [LinearOrder K]

abbrev Syms (K : Type) := List (Text × (K × K))

/-- The valuation that a combination stands for. -/
def combVal (syms : Syms K) (comb : List K) : Text → Option K := fun t =>
  ((syms.zip comb).find? (fun sv => decide (sv.1.1 = t))).map Prod.snd

theorem substAll_nil (sh : K → Text) (comb : List K) (e : Ex) : substAll sh [] comb e = e := by simp [substAll]

theorem substAll_cons (sh : K → Text) (kv : Text × (K × K)) (syms : Syms K) (v : K) (comb : List K) (e : Ex) :
    substAll sh (kv :: syms) (v :: comb) e = substAll sh syms comb (e.replace kv.1 (sh v)) := by
  simp [substAll]

theorem substAll_neg (sh : K → Text) (syms : Syms K) (comb : List K) (a : Ex) :
    substAll sh syms comb (.neg a) = .neg (substAll sh syms comb a) := by
  unfold substAll
  induction (syms.zip comb) generalizing a with
  | nil => rfl
  | cons s l ih => simp only [List.foldl_cons, Ex.replace, ih]

theorem substAll_add (sh : K → Text) (syms : Syms K) (comb : List K) (a b : Ex) :
    substAll sh syms comb (.add a b) = .add (substAll sh syms comb a) (substAll sh syms comb b) := by
  unfold substAll
  induction (syms.zip comb) generalizing a b with
  | nil => rfl
  | cons s l ih => simp only [List.foldl_cons, Ex.replace, ih]

theorem substAll_sub (sh : K → Text) (syms : Syms K) (comb : List K) (a b : Ex) :
    substAll sh syms comb (.sub a b) = .sub (substAll sh syms comb a) (substAll sh syms comb b) := by
  unfold substAll
  induction (syms.zip comb) generalizing a b with
  | nil => rfl
  | cons s l ih => simp only [List.foldl_cons, Ex.replace, ih]

theorem substAll_mul (sh : K → Text) (syms : Syms K) (comb : List K) (a b : Ex) :
    substAll sh syms comb (.mul a b) = .mul (substAll sh syms comb a) (substAll sh syms comb b) := by
  unfold substAll
  induction (syms.zip comb) generalizing a b with
  | nil => rfl
  | cons s l ih => simp only [List.foldl_cons, Ex.replace, ih]

theorem substAll_div (sh : K → Text) (syms : Syms K) (comb : List K) (a b : Ex) :
    substAll sh syms comb (.div a b) = .div (substAll sh syms comb a) (substAll sh syms comb b) := by
  unfold substAll
  induction (syms.zip comb) generalizing a b with
  | nil => rfl
  | cons s l ih => simp only [List.foldl_cons, Ex.replace, ih]

theorem substAll_pow (sh : K → Text) (syms : Syms K) (comb : List K) (a : Ex) (n : Nat) :
    substAll sh syms comb (.pow a n) = .pow (substAll sh syms comb a) n := by
  unfold substAll
  induction (syms.zip comb) generalizing a with
  | nil => rfl
  | cons s l ih => simp only [List.foldl_cons, Ex.replace, ih]

/-- Texts that contain none of the names stay as they are. -/
theorem substAll_atom_not (sh : K → Text) (syms : Syms K) (comb : List K) (t : Text) (h : ∀ kv ∈ syms, ¬ kv.1 <:+: t) :
    substAll sh syms comb (.atom t) = .atom t := by
  unfold substAll
  have : ∀ sv ∈ syms.zip comb, ¬ sv.1.1 <:+: t := fun sv hsv => h sv.1 (List.of_mem_zip (a := sv.1) (b := sv.2) (by simpa using hsv)).1
  generalize syms.zip comb = l at this
  induction l with
  | nil => rfl
  | cons s l ih =>
    simp only [List.foldl_cons, Ex.replace]
    rw [replaceText_not _ _ _ _ (this s (by simp))]
    exact ih (fun sv hsv => this sv (by simp [hsv]))

/-- What becomes of an atom. -/
theorem substAll_atom (sh : K → Text) (syms : Syms K) (comb : List K) (t : Text) (hlen : comb.length = syms.length)
    (h0 : ∀ kv ∈ syms, kv.1 ≠ []) (h1 : ∀ kv ∈ syms, kv.1 <:+: t → t = kv.1)
    (h2 : ∀ kv ∈ syms, ∀ v ∈ comb, ¬ kv.1 <:+: sh v) :
    substAll sh syms comb (.atom t) = .atom (match combVal syms comb t with | some v => sh v | none => t) := by
  induction syms generalizing comb with
  | nil => simp [substAll, combVal]
  | cons kv syms ih =>
    cases comb with
    | nil => simp at hlen
    | cons v comb =>
      rw [substAll_cons]
      by_cases ht : kv.1 = t
      · subst ht
        simp only [Ex.replace]
        rw [replaceText_self _ _ (h0 kv (by simp)), substAll_atom_not _ _ _ _ (fun kv' hkv' => h2 kv' (by simp [hkv']) v (by simp))]
        simp [combVal]
      · simp only [Ex.replace]
        rw [replaceText_not _ _ _ _ (fun hi => ht (h1 kv (by simp) hi).symm), ih comb (by simpa using hlen)
          (fun kv' hkv' => h0 kv' (by simp [hkv'])) (fun kv' hkv' => h1 kv' (by simp [hkv']))
          (fun kv' hkv' v' hv' => h2 kv' (by simp [hkv']) v' (by simp [hv']))]
        simp [combVal, ht]

theorem eval_pow (rd : Text → Option K) (a : Ex) (n : Nat) (h : ∀ t, a ≠ .atom ('-' :: t)) :
    (Ex.pow a n).eval rd = (a.eval rd).map (fun x => x ^ n) := by
  cases a with
  | atom t =>
    cases t with
    | nil => rfl
    | cons c t =>
      by_cases hc : c = '-'
      · subst hc; exact absurd rfl (h t)
      · rw [Ex.eval.eq_8]
        intro t' e
        injection e with e
        injection e with e1 e2
        exact hc e1
  | _ => rfl

theorem value_congr (rd : Text → Option K) (f g : Text → Option K) (e : Ex) (h : ∀ t, Occurs t e → f t = g t) :
    value rd f e = value rd g e := by
  induction e with
  | atom t => simp only [value]; rw [h t (by simp [Occurs, Ex.atoms])]
  | neg a ih => simp only [value]; rw [ih h]
  | pow a n ih => simp only [value]; rw [ih h]
  | add a b iha ihb | sub a b iha ihb | mul a b iha ihb | div a b iha ihb =>
    simp only [value]
    rw [iha (fun t ht => h t (by simp only [Occurs, Ex.atoms, List.mem_append] at *; exact .inl ht)),
      ihb (fun t ht => h t (by simp only [Occurs, Ex.atoms, List.mem_append] at *; exact .inr ht))]

/-- `substAll` only turns atoms into atoms. -/
theorem substAll_eq_atom (sh : K → Text) (syms : Syms K) (comb : List K) (a : Ex) (t : Text)
    (h : substAll sh syms comb a = .atom t) : ∃ u, a = .atom u := by
  cases a with
  | atom u => exact ⟨u, rfl⟩
  | neg a => rw [substAll_neg] at h; cases h
  | add a b => rw [substAll_add] at h; cases h
  | sub a b => rw [substAll_sub] at h; cases h
  | mul a b => rw [substAll_mul] at h; cases h
  | div a b => rw [substAll_div] at h; cases h
  | pow a n => rw [substAll_pow] at h; cases h

/-- The evaluation of the text agrees with the value. -/
theorem eval_subst (sh : K → Text) (rd : Text → Option K) (D : Dict Text (K × K)) (syms : Syms K) (comb : List K) (e : Ex)
    (hlen : comb.length = syms.length) (hsub : ∀ kv ∈ syms, kv ∈ D)
    (h0 : ∀ kv ∈ syms, kv.1 ≠ []) (h1 : ∀ kv ∈ syms, ∀ t, Occurs t e → kv.1 <:+: t → t = kv.1)
    (h2 : ∀ kv ∈ syms, ∀ v ∈ comb, ¬ kv.1 <:+: sh v) (h3 : ∀ v ∈ comb, rd (sh v) = some v) (hp : NoVarPow D e) (y : K)
    (hy : value rd (combVal syms comb) e = some y) : (substAll sh syms comb e).eval rd = .ok y := by
  have hcomb : ∀ t v, combVal syms comb t = some v → v ∈ comb := by
    intro t v hv
    simp only [combVal, Option.map_eq_some_iff] at hv
    obtain ⟨sv, hsv, rfl⟩ := hv
    exact (List.of_mem_zip (a := sv.1) (b := sv.2) (by simpa using List.mem_of_find?_eq_some hsv)).2
  induction e generalizing y with
  | atom t =>
    rw [substAll_atom sh syms comb t hlen h0 (fun kv hkv => h1 kv hkv t (by simp [Occurs, Ex.atoms])) h2]
    simp only [value] at hy
    cases hc : combVal syms comb t with
    | none =>
      rw [hc] at hy
      simp only [Option.none_or] at hy
      simp [Ex.eval, readNum, hy]
    | some v =>
      rw [hc] at hy
      simp only [Option.some_or, Option.some.injEq] at hy
      subst hy
      simp [Ex.eval, readNum, h3 v (hcomb t v hc)]
  | neg a ih =>
    simp only [value, Option.map_eq_some_iff] at hy
    obtain ⟨x, hx, rfl⟩ := hy
    rw [substAll_neg, Ex.eval, ih h1 hp x hx]
    rfl
  | pow a n ih =>
    simp only [value, Option.map_eq_some_iff] at hy
    obtain ⟨x, hx, rfl⟩ := hy
    have : ∀ t, substAll sh syms comb a ≠ .atom ('-' :: t) := by
      intro t he
      obtain ⟨u, rfl⟩ := substAll_eq_atom sh syms comb a _ he
      obtain ⟨hu1, hu2⟩ := hp.2 u rfl
      rw [substAll_atom_not sh syms comb u (fun kv hkv hi => hu1 (by
        rw [h1 kv hkv u (by simp [Occurs, Ex.atoms]) hi]
        exact List.mem_map_of_mem (hsub kv hkv)))] at he
      injection he with he
      exact hu2 t he
    rw [substAll_pow, eval_pow _ _ _ this, ih h1 hp.1 x hx]
    rfl
  | add a b iha ihb =>
    simp only [value, Option.bind_eq_some_iff, Option.map_eq_some_iff] at hy
    obtain ⟨x, hx, z, hz, rfl⟩ := hy
    rw [substAll_add, Ex.eval, iha (fun kv hkv t ht => h1 kv hkv t (by simp only [Occurs, Ex.atoms, List.mem_append] at *; exact .inl ht)) hp.1 x hx,
      ihb (fun kv hkv t ht => h1 kv hkv t (by simp only [Occurs, Ex.atoms, List.mem_append] at *; exact .inr ht)) hp.2 z hz]
    rfl
  | sub a b iha ihb =>
    simp only [value, Option.bind_eq_some_iff, Option.map_eq_some_iff] at hy
    obtain ⟨x, hx, z, hz, rfl⟩ := hy
    rw [substAll_sub, Ex.eval, iha (fun kv hkv t ht => h1 kv hkv t (by simp only [Occurs, Ex.atoms, List.mem_append] at *; exact .inl ht)) hp.1 x hx,
      ihb (fun kv hkv t ht => h1 kv hkv t (by simp only [Occurs, Ex.atoms, List.mem_append] at *; exact .inr ht)) hp.2 z hz]
    rfl
  | mul a b iha ihb =>
    simp only [value, Option.bind_eq_some_iff, Option.map_eq_some_iff] at hy
    obtain ⟨x, hx, z, hz, rfl⟩ := hy
    rw [substAll_mul, Ex.eval, iha (fun kv hkv t ht => h1 kv hkv t (by simp only [Occurs, Ex.atoms, List.mem_append] at *; exact .inl ht)) hp.1 x hx,
      ihb (fun kv hkv t ht => h1 kv hkv t (by simp only [Occurs, Ex.atoms, List.mem_append] at *; exact .inr ht)) hp.2 z hz]
    rfl
  | div a b iha ihb =>
    simp only [value, Option.bind_eq_some_iff] at hy
    obtain ⟨x, hx, z, hz, hxz⟩ := hy
    by_cases h0 : z = 0
    · rw [if_pos h0] at hxz; cases hxz
    · rw [if_neg h0] at hxz
      cases hxz
      rw [substAll_div, Ex.eval, iha (fun kv hkv t ht => h1 kv hkv t (by simp only [Occurs, Ex.atoms, List.mem_append] at *; exact .inl ht)) hp.1 x hx,
        ihb (fun kv hkv t ht => h1 kv hkv t (by simp only [Occurs, Ex.atoms, List.mem_append] at *; exact .inr ht)) hp.2 z hz]
      simp [Except.bind, divide, h0]

/-! ### valuations -/

theorem inRange_upd {D : Dict Text (K × K)} {vars : Text → Option K} (h : InRange D vars) (hnd : (D.map Prod.fst).Nodup) {t : Text} {r : K × K}
    (htr : (t, r) ∈ D) (x : K) (h1 : r.1 ≤ x) (h2 : x ≤ r.2) : InRange D (upd vars t x) := by
  intro u
  have hu := h u
  have ht : Dict.get? D t = some r := Dict.get?_of_mem hnd htr
  by_cases hut : u = t
  · subst hut
    rw [ht]
    exact ⟨x, by simp [Spec.upd], h1, h2⟩
  · cases hg : Dict.get? D u with
    | none => rw [hg] at hu; simpa [Spec.upd, hut] using hu
    | some r' => rw [hg] at hu; simpa [Spec.upd, hut] using hu

theorem inRange_le {D : Dict Text (K × K)} {vars : Text → Option K} (h : InRange D vars) (hnd : (D.map Prod.fst).Nodup) {t : Text} {r : K × K}
    (htr : (t, r) ∈ D) : r.1 ≤ r.2 := by
  have := h t
  rw [Dict.get?_of_mem hnd htr] at this
  obtain ⟨x, _, h1, h2⟩ := this
  exact le_trans h1 h2

/-- From a valuation to a corner with a value that is not larger (not smaller). -/
theorem to_corner (rd : Text → Option K) (D : Dict Text (K × K)) (hnd : (D.map Prod.fst).Nodup) (e : Ex) (hB : Between rd D e)
    (vars : Text → Option K) (hv : InRange D vars) (y : K) (hy : value rd vars e = some y) (L : Dict Text (K × K)) (hL : ∀ kv ∈ L, kv ∈ D) :
    (∃ c y', InRange D c ∧ (∀ kv ∈ L, c kv.1 = some kv.2.1 ∨ c kv.1 = some kv.2.2) ∧ value rd c e = some y' ∧ y' ≤ y) ∧
    (∃ c y', InRange D c ∧ (∀ kv ∈ L, c kv.1 = some kv.2.1 ∨ c kv.1 = some kv.2.2) ∧ value rd c e = some y' ∧ y ≤ y') := by
  induction L with
  | nil => exact ⟨⟨vars, y, hv, by simp, hy, le_refl _⟩, ⟨vars, y, hv, by simp, hy, le_refl _⟩⟩
  | cons kv L ih =>
    obtain ⟨⟨c, z, hc, hcL, hz, hzy⟩, ⟨d, w, hd, hdL, hw, hyw⟩⟩ := ih (fun kv hkv => hL kv (by simp [hkv]))
    have hkv : (kv.1, kv.2) ∈ D := hL kv (by simp)
    have hle := inRange_le hv hnd hkv
    -- a corner keeps the values of the variables treated before
    have hkeep : ∀ (g : Text → Option K) (b : K), b = kv.2.1 ∨ b = kv.2.2 →
        (∀ kv ∈ L, g kv.1 = some kv.2.1 ∨ g kv.1 = some kv.2.2) →
        ∀ kv' ∈ kv :: L, Spec.upd g kv.1 b kv'.1 = some kv'.2.1 ∨ Spec.upd g kv.1 b kv'.1 = some kv'.2.2 := by
      intro g b hb hg kv' hkv'
      by_cases hk : kv'.1 = kv.1
      · have : kv' = kv := by
          have a := Dict.get?_of_mem hnd (show (kv'.1, kv'.2) ∈ D from hL kv' hkv')
          rw [hk, Dict.get?_of_mem hnd hkv] at a
          exact Prod.ext hk (Option.some.inj a).symm
        subst this
        rcases hb with rfl | rfl
        · exact .inl (by simp [Spec.upd])
        · exact .inr (by simp [Spec.upd])
      · rcases List.mem_cons.1 hkv' with rfl | hm
        · exact absurd rfl hk
        · simpa [Spec.upd, hk] using hg kv' hm
    constructor
    · have hc1 := inRange_upd hc hnd hkv kv.2.1 (le_refl _) hle
      have hc2 := inRange_upd hc hnd hkv kv.2.2 hle (le_refl _)
      obtain ⟨yl, hyl⟩ := (hB _ hc1).1
      obtain ⟨yh, hyh⟩ := (hB _ hc2).1
      have := ((hB c hc).2 kv.1 kv.2 z yl yh hkv hz hyl hyh).1
      rcases min_le_iff.1 this with h | h
      · exact ⟨_, yl, hc1, hkeep c _ (.inl rfl) hcL, hyl, le_trans h hzy⟩
      · exact ⟨_, yh, hc2, hkeep c _ (.inr rfl) hcL, hyh, le_trans h hzy⟩
    · have hc1 := inRange_upd hd hnd hkv kv.2.1 (le_refl _) hle
      have hc2 := inRange_upd hd hnd hkv kv.2.2 hle (le_refl _)
      obtain ⟨yl, hyl⟩ := (hB _ hc1).1
      obtain ⟨yh, hyh⟩ := (hB _ hc2).1
      have := ((hB d hd).2 kv.1 kv.2 w yl yh hkv hw hyl hyh).2
      rcases le_max_iff.1 this with h | h
      · exact ⟨_, yl, hc1, hkeep d _ (.inl rfl) hdL, hyl, le_trans hyw h⟩
      · exact ⟨_, yh, hc2, hkeep d _ (.inr rfl) hdL, hyh, le_trans hyw h⟩

theorem bounds_spec (l : List K) (r : K × K) (h : bounds l = .ok r) : ∀ x ∈ l, r.1 ≤ x ∧ x ≤ r.2 := by
  cases l with
  | nil => simp [bounds] at h
  | cons a l =>
    simp only [bounds, Except.ok.injEq] at h
    subst h
    have hmin : ∀ (l : List K) (a : K), (l.foldl min a ≤ a) ∧ ∀ x ∈ l, l.foldl min a ≤ x := by
      intro l
      induction l with
      | nil => intro a; simp
      | cons b l ih =>
        intro a
        simp only [List.foldl_cons]
        obtain ⟨h1, h2⟩ := ih (min a b)
        refine ⟨le_trans h1 (min_le_left _ _), ?_⟩
        intro x hx
        rcases List.mem_cons.1 hx with rfl | hx
        · exact le_trans h1 (min_le_right _ _)
        · exact h2 x hx
    have hmax : ∀ (l : List K) (a : K), (a ≤ l.foldl max a) ∧ ∀ x ∈ l, x ≤ l.foldl max a := by
      intro l
      induction l with
      | nil => intro a; simp
      | cons b l ih =>
        intro a
        simp only [List.foldl_cons]
        obtain ⟨h1, h2⟩ := ih (max a b)
        refine ⟨le_trans (le_max_left _ _) h1, ?_⟩
        intro x hx
        rcases List.mem_cons.1 hx with rfl | hx
        · exact le_trans (le_max_right _ _) h1
        · exact h2 x hx
    intro x hx
    rcases List.mem_cons.1 hx with rfl | hx
    · exact ⟨(hmin l x).1, (hmax l x).1⟩
    · exact ⟨(hmin l a).2 x hx, (hmax l a).2 x hx⟩

/-- The valuation of a combination of ends agrees with a corner on the symbols, and both have no value elsewhere. -/
theorem combVal_corner (c : Text → Option K) (S : Syms K)
    (hnd : (S.map Prod.fst).Nodup) (comb : List K)
    (hcomb : List.Forall₂ (fun (kv : Text × (K × K)) v => c kv.1 = some v) S comb) (t : Text) (ht : (∃ kv ∈ S, kv.1 = t) ∨ c t = none) :
    combVal S comb t = c t := by
  induction hcomb with
  | nil => rcases ht with ⟨kv, hkv, _⟩ | ht
           · cases hkv
           · simpa [combVal] using ht.symm
  | @cons kv v S comb h1 h2 ih =>
    simp only [List.map_cons, List.nodup_cons] at hnd
    by_cases hk : kv.1 = t
    · subst hk
      simp [combVal, h1]
    · have := ih hnd.2 (by
        rcases ht with ⟨kv', hkv', rfl⟩ | ht
        · rcases List.mem_cons.1 hkv' with rfl | hm
          · exact absurd rfl hk
          · exact .inl ⟨kv', hm, rfl⟩
        · exact .inr ht)
      rw [← this]
      simp [combVal, hk]

/-- The range of a reset expression contains the value in every state. -/
theorem resetRange_spec (sh : K → Text) (rd : Text → Option K) (D : Dict Text (K × K)) (e : Ex) (hR : Readable sh rd D e)
    (hP : NoVarPow D e) (hB : Between rd D e) (vars : Text → Option K) (hv : InRange D vars) :
    ∃ r y, resetRange sh rd D e = .ok r ∧ value rd vars e = some y ∧ r.1 ≤ y ∧ y ≤ r.2 := by
  obtain ⟨hnd, h0, h1, h2⟩ := hR
  obtain ⟨y, hy⟩ := (hB vars hv).1
  have hsub : ∀ kv ∈ symbols D e, kv ∈ D := fun kv hkv => (List.mem_filter.1 hkv).1
  have hsnd : ((symbols D e).map Prod.fst).Nodup := hnd.sublist (List.filter_sublist.map _)
  -- every combination comes from a valuation
  have hcv : ∀ c, InRange D c → (∀ kv ∈ D, c kv.1 = some kv.2.1 ∨ c kv.1 = some kv.2.2) → ∀ comb,
      List.Forall₂ (fun (kv : Text × (K × K)) v => c kv.1 = some v) (symbols D e) comb → ∀ z, value rd c e = some z →
      (substAll sh (symbols D e) comb e).eval rd = .ok z := by
    intro c hc hcD comb hcomb z hz
    have hmem : ∀ v ∈ comb, ∃ kv ∈ D, v = kv.2.1 ∨ v = kv.2.2 := by
      intro v hvm
      obtain ⟨kv, hkv, hkc⟩ := forall₂_mem_right hcomb hvm
      refine ⟨kv, hsub kv hkv, ?_⟩
      rcases hcD kv (hsub kv hkv) with h | h
      · rw [h] at hkc; exact .inl (Option.some.inj hkc).symm
      · rw [h] at hkc; exact .inr (Option.some.inj hkc).symm
    refine eval_subst sh rd D (symbols D e) comb e hcomb.length_eq.symm hsub (fun kv hkv => h0 kv (hsub kv hkv))
      (fun kv hkv t ht => h1 kv (hsub kv hkv) t ht) ?_ ?_ hP z ?_
    · intro kv hkv v hvm
      obtain ⟨kv', hkv', hk⟩ := hmem v hvm
      exact (h2 kv (hsub kv hkv) kv' hkv' v hk).1
    · intro v hvm
      obtain ⟨kv', hkv', hk⟩ := hmem v hvm
      exact (h2 kv' hkv' kv' hkv' v hk).2
    · rw [← hz]
      refine value_congr rd _ _ e (fun t ht => combVal_corner c _ hsnd comb hcomb t ?_)
      by_cases hin : ∃ kv ∈ D, kv.1 = t
      · obtain ⟨kv, hkv, rfl⟩ := hin
        refine .inl ⟨kv, List.mem_filter.2 ⟨hkv, ?_⟩, rfl⟩
        simp only [List.any_eq_true, decide_eq_true_eq]
        exact ⟨kv.1, ht, List.infix_refl _⟩
      · refine .inr ?_
        have := hc t
        have hnone : Dict.get? D t = none := by
          rw [Dict.get?_none_iff]
          intro hm
          obtain ⟨kv, hkv, he⟩ := List.mem_map.1 hm
          exact hin ⟨kv, hkv, he⟩
        rwa [hnone] at this
  -- the corner that a combination stands for
  have hof : ∀ comb, comb ∈ combinations (symbols D e) → ∃ c, InRange D c ∧ (∀ kv ∈ D, c kv.1 = some kv.2.1 ∨ c kv.1 = some kv.2.2) ∧
      List.Forall₂ (fun (kv : Text × (K × K)) v => c kv.1 = some v) (symbols D e) comb := by
    intro comb hcomb
    unfold combinations at hcomb
    rw [mem_product, List.forall₂_map_right_iff] at hcomb
    -- start from the lower ends, then update
    have key : ∀ (S : Syms K) (comb : List K), (S.map Prod.fst).Nodup → (∀ kv ∈ S, kv ∈ D) →
        List.Forall₂ (fun (a : K) (c : Text × (K × K)) => a ∈ [c.2.1, c.2.2]) comb S →
        ∃ c, InRange D c ∧ (∀ kv ∈ D, c kv.1 = some kv.2.1 ∨ c kv.1 = some kv.2.2) ∧
          List.Forall₂ (fun (kv : Text × (K × K)) v => c kv.1 = some v) S comb := by
      intro S comb hS hSD h
      induction h with
      | nil =>
        obtain ⟨⟨c, _, hc, hcD, _⟩, _⟩ := to_corner rd D hnd e hB vars hv y hy D (fun _ h => h)
        exact ⟨c, hc, hcD, .nil⟩
      | @cons v kv comb S hv1 hrest ih =>
        simp only [List.map_cons, List.nodup_cons] at hS
        obtain ⟨c, hc, hcD, hcS⟩ := ih hS.2 (fun kv h => hSD kv (by simp [h]))
        have hkvD : (kv.1, kv.2) ∈ D := hSD kv (by simp)
        have hle := inRange_le hv hnd hkvD
        have hv1 : v = kv.2.1 ∨ v = kv.2.2 := by simpa using hv1
        refine ⟨Spec.upd c kv.1 v, inRange_upd hc hnd hkvD v ?_ ?_, ?_, .cons (by simp [Spec.upd]) ?_⟩
        · rcases hv1 with rfl | rfl
          · exact le_refl _
          · exact hle
        · rcases hv1 with rfl | rfl
          · exact hle
          · exact le_refl _
        · intro kv' hkv'
          by_cases hk : kv'.1 = kv.1
          · have : kv' = kv := by
              have a := Dict.get?_of_mem hnd (show (kv'.1, kv'.2) ∈ D from hkv')
              rw [hk, Dict.get?_of_mem hnd hkvD] at a
              exact Prod.ext hk (Option.some.inj a).symm
            subst this
            rcases hv1 with rfl | rfl
            · exact .inl (by simp [Spec.upd])
            · exact .inr (by simp [Spec.upd])
          · simpa [Spec.upd, hk] using hcD kv' hkv'
        · refine forall₂_imp_left hcS ?_
          intro kv' hm v' hh
          have hk : kv'.1 ≠ kv.1 := by
            intro hk
            exact hS.1 (hk ▸ List.mem_map_of_mem hm)
          simpa [Spec.upd, hk] using hh
    exact key (symbols D e) comb hsnd hsub hcomb
  have hall : ∃ vals, (combinations (symbols D e)).mapM (fun comb => (substAll sh (symbols D e) comb e).eval rd) = .ok vals ∧
      List.Forall₂ (fun comb z => (substAll sh (symbols D e) comb e).eval rd = .ok z) (combinations (symbols D e)) vals := by
    have : ∀ comb ∈ combinations (symbols D e), ∃ z, (substAll sh (symbols D e) comb e).eval rd = .ok z := by
      intro comb hcomb
      obtain ⟨c, hc, hcD, hcS⟩ := hof comb hcomb
      obtain ⟨z, hz⟩ := (hB c hc).1
      exact ⟨z, hcv c hc hcD comb hcS z hz⟩
    exact Proofs.Cont.mapM_ex _ _ _ (fun comb hcomb => by
      obtain ⟨z, hz⟩ := this comb hcomb
      exact ⟨z, hz, hz⟩)
  obtain ⟨vals, hm, hvals⟩ := hall
  have hex : ∀ c z, InRange D c → (∀ kv ∈ D, c kv.1 = some kv.2.1 ∨ c kv.1 = some kv.2.2) → value rd c e = some z → z ∈ vals := by
    intro c z hc hcD hz
    have hcomb : ∃ comb, comb ∈ combinations (symbols D e) ∧
        List.Forall₂ (fun (kv : Text × (K × K)) v => c kv.1 = some v) (symbols D e) comb := by
      unfold combinations
      have : ∀ S : Syms K, (∀ kv ∈ S, kv ∈ D) → ∃ comb, comb ∈ product (S.map (fun kv => [kv.2.1, kv.2.2])) ∧
          List.Forall₂ (fun (kv : Text × (K × K)) v => c kv.1 = some v) S comb := by
        intro S
        induction S with
        | nil => intro _; exact ⟨[], by simp [product], .nil⟩
        | cons kv S ih =>
          intro hS
          obtain ⟨comb, h1, h2⟩ := ih (fun kv h => hS kv (by simp [h]))
          rw [mem_product] at h1
          rcases hcD kv (hS kv (by simp)) with h | h
          · exact ⟨kv.2.1 :: comb, by rw [mem_product]; exact .cons (by simp) h1, .cons h h2⟩
          · exact ⟨kv.2.2 :: comb, by rw [mem_product]; exact .cons (by simp) h1, .cons h h2⟩
      exact this _ hsub
    obtain ⟨comb, hcm, hcS⟩ := hcomb
    obtain ⟨z', hz', hev⟩ := forall₂_mem_left hvals hcm
    rw [hcv c hc hcD comb hcS z hz] at hev
    cases hev
    exact hz'
  obtain ⟨⟨c, yl, hc, hcD, hyl, hle⟩, ⟨d, yh, hd, hdD, hyh, hge⟩⟩ := to_corner rd D hnd e hB vars hv y hy D (fun _ h => h)
  have hml := hex c yl hc hcD hyl
  have hmh := hex d yh hd hdD hyh
  cases hb : bounds vals with
  | error err =>
    cases vals with
    | nil => cases hml
    | cons a l => simp [bounds] at hb
  | ok r =>
    refine ⟨r, y, by unfold resetRange; rw [hm]; exact hb, hy, le_trans (bounds_spec vals r hb yl hml).1 hle,
      le_trans hge (bounds_spec vals r hb yh hmh).2⟩

/-! ### expressions that are affine in each variable -/

theorem value_upd_not (rd : Text → Option K) (vars : Text → Option K) (t : Text) (x : K) (e : Ex) (h : ¬ Occurs t e) :
    value rd (upd vars t x) e = value rd vars e :=
  value_congr rd _ _ e (fun u hu => by
    have : u ≠ t := fun he => h (he ▸ hu)
    simp [upd, this])

theorem multiAffine_value (rd : Text → Option K) (isVar : Text → Prop) (e : Ex) (h : MultiAffine rd isVar e) (vars : Text → Option K)
    (hv : ∀ t, isVar t → ∃ x, vars t = some x) (hn : ∀ t, ¬ isVar t → vars t = none) : ∃ y, value rd vars e = some y := by
  have hclosed : ∀ e : Ex, (∀ t, Occurs t e → ¬ isVar t) → value rd vars e = value rd (fun _ => none) e := fun e h =>
    value_congr rd _ _ e (fun t ht => hn t (h t ht))
  induction h with
  | var t h =>
    obtain ⟨x, hx⟩ := hv t h
    exact ⟨x, by simp [value, hx]⟩
  | closed e h x hx => exact ⟨x, by rw [hclosed e h, hx]⟩
  | neg a _ ih => obtain ⟨y, hy⟩ := ih; exact ⟨-y, by simp [value, hy]⟩
  | add a b _ _ iha ihb => obtain ⟨y, hy⟩ := iha; obtain ⟨z, hz⟩ := ihb; exact ⟨y + z, by simp [value, hy, hz]⟩
  | sub a b _ _ iha ihb => obtain ⟨y, hy⟩ := iha; obtain ⟨z, hz⟩ := ihb; exact ⟨y - z, by simp [value, hy, hz]⟩
  | mul a b _ _ _ iha ihb => obtain ⟨y, hy⟩ := iha; obtain ⟨z, hz⟩ := ihb; exact ⟨y * z, by simp [value, hy, hz]⟩
  | div a b h x hx h0 _ ih => obtain ⟨y, hy⟩ := ih; exact ⟨y / x, by simp [value, hy, hclosed b h, hx, h0]⟩

theorem multiAffine_affine (rd : Text → Option K) (isVar : Text → Prop) (e : Ex) (h : MultiAffine rd isVar e) (vars : Text → Option K)
    (hv : ∀ t, isVar t → ∃ x, vars t = some x) (hn : ∀ t, ¬ isVar t → vars t = none) (t : Text) (ht : isVar t) :
    ∃ a b : K, ∀ x, value rd (upd vars t x) e = some (a + b * x) := by
  have hconst : ∀ e : Ex, MultiAffine rd isVar e → ¬ Occurs t e → ∃ a : K, ∀ x, value rd (upd vars t x) e = some a := by
    intro e he ho
    obtain ⟨y, hy⟩ := multiAffine_value rd isVar e he vars hv hn
    exact ⟨y, fun x => by rw [value_upd_not rd vars t x e ho, hy]⟩
  induction h with
  | var u h =>
    by_cases hu : u = t
    · subst hu
      exact ⟨0, 1, fun x => by simp [value, upd]⟩
    · obtain ⟨y, hy⟩ := hv u h
      exact ⟨y, 0, fun x => by simp [value, upd, hu, hy]⟩
  | closed e h x hx =>
    have ho : ¬ Occurs t e := fun ho => h t ho ht
    obtain ⟨y, hy⟩ := hconst e (.closed e h x hx) ho
    exact ⟨y, 0, fun x => by rw [hy x]; simp⟩
  | neg a _ ih =>
    obtain ⟨p, q, hpq⟩ := ih
    refine ⟨-p, -q, fun x => ?_⟩
    simp only [value, hpq x, Option.map_some, Option.some.injEq]
    ring
  | add a b _ _ iha ihb =>
    obtain ⟨p, q, hpq⟩ := iha
    obtain ⟨p', q', hpq'⟩ := ihb
    refine ⟨p + p', q + q', fun x => ?_⟩
    simp only [value, hpq x, hpq' x, Option.bind_some, Option.map_some, Option.some.injEq]
    ring
  | sub a b _ _ iha ihb =>
    obtain ⟨p, q, hpq⟩ := iha
    obtain ⟨p', q', hpq'⟩ := ihb
    refine ⟨p - p', q - q', fun x => ?_⟩
    simp only [value, hpq x, hpq' x, Option.bind_some, Option.map_some, Option.some.injEq]
    ring
  | mul a b hab ha hb iha ihb =>
    by_cases ho : Occurs t a
    · obtain ⟨p, q, hpq⟩ := iha
      obtain ⟨p', hp'⟩ := hconst b hb (hab t ht ho)
      refine ⟨p * p', q * p', fun x => ?_⟩
      simp only [value, hpq x, hp' x, Option.bind_some, Option.map_some, Option.some.injEq]
      ring
    · obtain ⟨p, q, hpq⟩ := ihb
      obtain ⟨p', hp'⟩ := hconst a ha ho
      refine ⟨p' * p, p' * q, fun x => ?_⟩
      simp only [value, hpq x, hp' x, Option.bind_some, Option.map_some, Option.some.injEq]
      ring
  | div a b h x hx h0 ha ih =>
    obtain ⟨p, q, hpq⟩ := ih
    have hb : ∀ z, value rd (upd vars t z) b = some x := by
      intro z
      rw [value_upd_not rd vars t z b (fun ho => h t ho ht), value_congr rd vars (fun _ => none) b (fun u hu => hn u (h u hu)), hx]
    refine ⟨p / x, q / x, fun z => ?_⟩
    simp only [value, hpq z, hb z, Option.bind_some, h0, if_false, Option.some.injEq]
    ring

theorem between_of_multiAffine [IsStrictOrderedRing K] (rd : Text → Option K) (D : Dict Text (K × K)) (hnd : (D.map Prod.fst).Nodup) (e : Ex)
    (h : MultiAffine rd (fun t => t ∈ D.map Prod.fst) e) : Between rd D e := by
  intro vars hv
  have hvs : ∀ t, t ∈ D.map Prod.fst → ∃ x, vars t = some x := by
    intro t ht
    obtain ⟨kv, hkv, rfl⟩ := List.mem_map.1 ht
    have := hv kv.1
    rw [Dict.get?_of_mem hnd (show (kv.1, kv.2) ∈ D from hkv)] at this
    obtain ⟨x, hx, _⟩ := this
    exact ⟨x, hx⟩
  have hvn : ∀ t, t ∉ D.map Prod.fst → vars t = none := by
    intro t ht
    have := hv t
    rwa [(Dict.get?_none_iff D t).2 ht] at this
  refine ⟨multiAffine_value rd _ e h vars hvs hvn, ?_⟩
  intro t r y yl yh htr hy hyl hyh
  obtain ⟨a, b, hab⟩ := multiAffine_affine rd _ e h vars hvs hvn t (List.mem_map_of_mem htr)
  have hvt := hv t
  rw [Dict.get?_of_mem hnd htr] at hvt
  obtain ⟨x, hx, h1, h2⟩ := hvt
  have hy' : y = a + b * x := by
    have : upd vars t x = vars := by
      funext u
      by_cases hu : u = t
      · subst hu; simp [upd, hx]
      · simp [upd, hu]
    have hh := hab x
    rw [this, hy] at hh
    exact Option.some.inj hh
  rw [hab] at hyl hyh
  cases hyl; cases hyh
  subst hy'
  rcases le_total 0 b with hb | hb
  · have e1 := mul_le_mul_of_nonneg_left h1 hb
    have e2 := mul_le_mul_of_nonneg_left h2 hb
    exact ⟨min_le_iff.2 (.inl (by linarith)), le_max_iff.2 (.inr (by linarith))⟩
  · have e1 := mul_le_mul_of_nonpos_left h1 hb
    have e2 := mul_le_mul_of_nonpos_left h2 hb
    exact ⟨min_le_iff.2 (.inr (by linarith)), le_max_iff.2 (.inl (by linarith))⟩

/-! ### all resets of a transition -/

theorem indexOf_some {l : List String} {s : String} {i : Nat} (h : Sim.indexOf? l s = some i) : l[i]? = some s := by
  unfold Sim.indexOf? at h
  rw [List.findIdx?_eq_some_iff_getElem] at h
  obtain ⟨hi, h1, _⟩ := h
  rw [List.getElem?_eq_getElem hi]
  simpa using h1

theorem inside_set {p : List K} {r : Rect.Box K} {i : Nat} {x lo hi : K} (h : Rect.Spec.Inside p r) (h1 : lo ≤ x) (h2 : x ≤ hi) :
    Rect.Spec.Inside (p.set i x) (r.1.set i lo, r.2.set i hi) := by
  have key : ∀ (a b : List K) (i : Nat) (x y : K), List.Forall₂ (fun (u v : K) => u ≤ v) a b → x ≤ y →
      List.Forall₂ (fun (u v : K) => u ≤ v) (a.set i x) (b.set i y) := by
    intro a b i x y h hxy
    induction h generalizing i with
    | nil => exact .nil
    | cons h t ih =>
      cases i with
      | zero => exact .cons hxy t
      | succ i => exact .cons h (ih i)
  exact ⟨key _ _ _ _ _ h.1 h1, key _ _ _ _ _ h.2 h2⟩

end

end Verif.Proofs.Rst
