import Verif.Proofs.Reset

/-!
Property C26: the image of a rectangle under the resets of a transition.
-/

set_option autoImplicit false
set_option linter.unusedSectionVars false

namespace Verif.Props

open Verif.Rst Verif.Rst.Spec Verif.Proofs.Rst Verif.Rect.Spec

section
variable {K : Type} [Field K] [LinearOrder K] {V D : Type}

/-- **C26**, in part. If the texts of the variables can be told apart, no variable is directly the base of a power, and every reset
expression is in each variable between its values at the two ends of the range, then the rectangle after the resets contains the state
after the resets, for every state in the rectangle and all values of the variables in their ranges.

Missing: expressions that take their extremes inside the range (`C26_square_violated`), names of which one is part of the other
(`C26_names_violated`) and powers of a negative variable (`C26_power_violated`), for which the claim is false. -/
theorem C26_reset_rectangle_partial (sh : K → Text) (rd : Text → Option K) (contVars discVars : List String) (mode : List V)
    (rect : Rect.Box K) (items : List (Item K V D)) (dests : List (List V)) (rect' : Rect.Box K)
    (hrun : applyReset sh rd contVars discVars mode rect items = .ok (dests, rect'))
    (hnd : contVars.Nodup) (hmode : ∀ v ∈ contVars, Sim.hasMode v = false) (hvars : (items.map Item.var).Nodup)
    (hex : ∀ it ∈ items, ∀ e, it.val = .arith e → it.var ∈ contVars →
      Readable sh rd it.cont e ∧ NoVarPow it.cont e ∧ Between rd it.cont e)
    (pre post : List K) (vars : Item K V D → Text → Option K) (hr : ∀ it ∈ items, InRange it.cont (vars it))
    (hlen : pre.length = contVars.length) (hpre : Inside pre rect) (hafter : After rd contVars items vars pre post) :
    Inside post rect' := by
  unfold applyReset at hrun
  obtain ⟨r, hr1, hr2⟩ := (map_ok_iff _ _ _).1 hrun
  simp only [Prod.mk.injEq] at hr2
  obtain ⟨-, rfl⟩ := hr2
  clear hrun
  generalize mode.map (fun m => [m]) = slots at hr1
  induction items generalizing slots rect pre with
  | nil =>
    simp only [List.foldlM_nil] at hr1
    cases hr1
    have : post = pre := by
      apply List.ext_getElem?
      intro i
      by_cases hi : i < contVars.length
      · exact ((hafter.2 i contVars[i] (List.getElem?_eq_getElem hi)).2 (by simp))
      · rw [List.getElem?_eq_none (by have := hafter.1; omega), List.getElem?_eq_none (by omega)]
    rw [this]; exact hpre
  | cons it items ih =>
    simp only [List.map_cons, List.nodup_cons] at hvars
    rw [foldlM_cons_ok] at hr1
    obtain ⟨acc, h1, h2⟩ := hr1
    have hother : ∀ it' ∈ items, it'.var ≠ it.var := fun it' h e => hvars.1 (e ▸ List.mem_map_of_mem h)
    unfold applyOne at h1
    by_cases hm : Sim.hasMode it.var = true
    · rw [if_pos hm] at h1
      have hnc : it.var ∉ contVars := fun h => by rw [hmode _ h] at hm; cases hm
      cases hi : Sim.indexOf? discVars it.var with
      | none => rw [hi] at h1; cases h1
      | some i =>
        rw [hi] at h1
        simp only [] at h1
        cases hs : slots[i]? with
        | none => rw [hs] at h1; cases h1
        | some old =>
          rw [hs] at h1
          simp only [Except.ok.injEq] at h1
          subst h1
          refine ih rect hvars.2 (fun it' h => hex it' (by simp [h])) pre (fun it' h => hr it' (by simp [h])) hlen hpre
            ⟨hafter.1, fun j v hj => ⟨fun it' h => (hafter.2 j v hj).1 it' (by simp [h]), fun h => (hafter.2 j v hj).2 ?_⟩⟩ _ h2
          intro it' hit'
          rcases List.mem_cons.1 hit' with rfl | hit'
          · intro e
            exact hnc (e ▸ List.mem_of_getElem? hj)
          · exact h it' hit'
    · rw [if_neg hm] at h1
      cases hi : Sim.indexOf? contVars it.var with
      | none => rw [hi] at h1; cases h1
      | some i =>
        rw [hi] at h1
        simp only [] at h1
        have hci := indexOf_some hi
        cases hval : it.val with
        | const v => rw [hval] at h1; cases h1
        | member k v => rw [hval] at h1; cases h1
        | mapCall f => rw [hval] at h1; cases h1
        | arith e =>
          rw [hval] at h1
          simp only [] at h1
          obtain ⟨q1, q2, q3⟩ := hex it (by simp) e hval (List.mem_of_getElem? hci)
          obtain ⟨rng, y, g1, g2, g3, g4⟩ := resetRange_spec sh rd it.cont e q1 q2 q3 (vars it) (hr it (by simp))
          rw [g1] at h1
          simp only [Except.bind] at h1
          by_cases hcond : i < rect.1.length ∧ i < rect.2.length
          · rw [if_pos hcond] at h1
            simp only [Except.ok.injEq] at h1
            subst h1
            obtain ⟨e', he', x, hx1, hx2⟩ := (hafter.2 i it.var hci).1 it (by simp) rfl
            rw [hval] at he'
            cases he'
            rw [g2] at hx2
            cases hx2
            have hil : i < contVars.length := (List.getElem?_eq_some_iff.1 hci).1
            refine ih (rect.1.set i rng.1, rect.2.set i rng.2) hvars.2 (fun it' h => hex it' (by simp [h])) (pre.set i y)
              (fun it' h => hr it' (by simp [h])) (by simpa using hlen) (inside_set hpre g3 g4) ⟨by simpa using hafter.1, fun j v hj => ?_⟩ _ h2
            refine ⟨fun it' h => (hafter.2 j v hj).1 it' (by simp [h]), fun h => ?_⟩
            by_cases hji : j = i
            · subst hji
              rw [hx1, List.getElem?_set_self (by omega)]
            · rw [List.getElem?_set_ne (Ne.symm hji)]
              refine (hafter.2 j v hj).2 ?_
              intro it' hit'
              rcases List.mem_cons.1 hit' with rfl | hit'
              · intro e
                rw [e] at hci
                obtain ⟨a1, a2⟩ := List.getElem?_eq_some_iff.1 hci
                obtain ⟨b1, b2⟩ := List.getElem?_eq_some_iff.1 hj
                exact hji ((List.Nodup.getElem_inj_iff hnd).1 (b2.trans a2.symm))
              · exact h it' hit'
          · rw [if_neg hcond] at h1; cases h1

/-- Expressions that are affine in each variable take their extremes at the corners, so they meet the hypothesis of
`C26_reset_rectangle_partial`. -/
theorem C26_affine_partial [IsStrictOrderedRing K] (rd : Text → Option K) (D : Dict Text (K × K)) (hnd : (D.map Prod.fst).Nodup) (e : Ex)
    (h : MultiAffine rd (fun t => t ∈ D.map Prod.fst) e) : Between rd D e := between_of_multiAffine rd D hnd e h

/-- The range computed for one reset expression contains the value of the expression in every state. -/
theorem C26_range_partial (sh : K → Text) (rd : Text → Option K) (D : Dict Text (K × K)) (e : Ex) (hR : Readable sh rd D e)
    (hP : NoVarPow D e) (hB : Between rd D e) (vars : Text → Option K) (hv : InRange D vars) :
    ∃ r y, resetRange sh rd D e = .ok r ∧ value rd vars e = some y ∧ r.1 ≤ y ∧ y ≤ r.2 :=
  resetRange_spec sh rd D e hR hP hB vars hv

/-- The destination modes: exactly the modes after the resets, provided that every mode is reset to a constant, a member of a mode
definition or a result of the map. -/
theorem C26_destinations_partial (sh : K → Text) (rd : Text → Option K) (contVars discVars : List String) (mode : List V)
    (rect : Rect.Box K) (items : List (Item K V D)) (dests : List (List V)) (rect' : Rect.Box K)
    (hrun : applyReset sh rd contVars discVars mode rect items = .ok (dests, rect'))
    (hnd : discVars.Nodup) (hmode : ∀ v ∈ discVars, Sim.hasMode v = true) (hvars : (items.map Item.var).Nodup)
    (hex : ∀ it ∈ items, it.var ∈ discVars → (∀ e, it.val ≠ .arith e) ∧ ∀ v, it.val ≠ .member false v)
    (hlen : mode.length = discVars.length) (dest : List V) :
    dest ∈ dests ↔ ModeAfter discVars items mode dest := by
  unfold applyReset at hrun
  obtain ⟨r, hr1, hr2⟩ := (map_ok_iff _ _ _).1 hrun
  simp only [Prod.mk.injEq] at hr2
  obtain ⟨rfl, -⟩ := hr2
  clear hrun
  rw [mem_product, List.forall₂_iff_get]
  -- what the slots are
  have key : ∀ (items : List (Item K V D)) (slots : List (List V)) (rect : Rect.Box K) (r : List (List V) × Rect.Box K),
      (items.map Item.var).Nodup → slots.length = discVars.length →
      (∀ it ∈ items, it.var ∈ discVars → (∀ e, it.val ≠ .arith e) ∧ ∀ v, it.val ≠ .member false v) →
      items.foldlM (applyOne sh rd contVars discVars) (slots, rect) = .ok r →
      r.1.length = discVars.length ∧ ∀ (i : Nat) (v : String) (s : List V), discVars[i]? = some v → r.1[i]? = some s →
        (∀ it ∈ items, it.var = v → ∀ y, y ∈ s ↔ NewMode it.disc it.val y) ∧ ((∀ it ∈ items, it.var ≠ v) → slots[i]? = some s) := by
    intro items
    induction items with
    | nil =>
      intro slots rect r _ hl _ h
      simp only [List.foldlM_nil] at h
      cases h
      exact ⟨hl, fun i v s hv hs => ⟨by simp, fun _ => hs⟩⟩
    | cons it items ih =>
      intro slots rect r hn hl hx h
      simp only [List.map_cons, List.nodup_cons] at hn
      rw [foldlM_cons_ok] at h
      obtain ⟨acc, h1, h2⟩ := h
      have hother : ∀ it' ∈ items, it'.var ≠ it.var := fun it' h e => hn.1 (e ▸ List.mem_map_of_mem h)
      unfold applyOne at h1
      by_cases hm : Sim.hasMode it.var = true
      · rw [if_pos hm] at h1
        cases hi : Sim.indexOf? discVars it.var with
        | none => rw [hi] at h1; cases h1
        | some i =>
          rw [hi] at h1
          simp only [] at h1
          have hci := indexOf_some hi
          cases hs : slots[i]? with
          | none => rw [hs] at h1; cases h1
          | some old =>
            rw [hs] at h1
            simp only [Except.ok.injEq] at h1
            subst h1
            obtain ⟨k1, k2⟩ := ih _ _ r hn.2 (by simpa using hl) (fun it' h => hx it' (by simp [h])) h2
            refine ⟨k1, fun j v s hv hs' => ?_⟩
            obtain ⟨m1, m2⟩ := k2 j v s hv hs'
            have hji : it.var = v ↔ j = i := by
              constructor
              · intro e
                rw [e] at hci
                obtain ⟨a1, a2⟩ := List.getElem?_eq_some_iff.1 hci
                obtain ⟨b1, b2⟩ := List.getElem?_eq_some_iff.1 hv
                exact (List.Nodup.getElem_inj_iff hnd).1 (b2.trans a2.symm)
              · rintro rfl
                rw [hci] at hv
                exact Option.some.inj hv
            constructor
            · intro it' hit' hv' y
              rcases List.mem_cons.1 hit' with rfl | hit'
              · have hsl := m2 (fun it'' h e => hother it'' h (e.trans hv'.symm))
                have hj := hji.1 hv'
                subst hj
                rw [List.getElem?_set_self (List.getElem?_eq_some_iff.1 hs).1] at hsl
                cases hsl
                obtain ⟨x1, x2⟩ := hx it' (by simp) (List.mem_of_getElem? hci)
                cases hval : it'.val with
                | const c =>
                  simp only [destOf, List.mem_singleton]
                  constructor
                  · rintro rfl; exact .const _
                  · intro h; cases h; rfl
                | member k c =>
                  cases k with
                  | false => exact absurd hval (x2 c)
                  | true =>
                    simp only [destOf, if_true, List.mem_singleton]
                    constructor
                    · rintro rfl; exact .member _
                    · intro h; cases h; rfl
                | mapCall f =>
                  simp only [destOf]
                  constructor
                  · intro h; exact .mapCall f _ h
                  · intro h; cases h; assumption
                | arith e => exact absurd hval (x1 e)
              · exact m1 it' hit' hv' y
            · intro hno
              have := m2 (fun it' h => hno it' (by simp [h]))
              have hne : j ≠ i := fun e => hno it (by simp) (hji.2 e)
              rwa [List.getElem?_set_ne (Ne.symm hne)] at this
      · rw [if_neg hm] at h1
        have hnd' : it.var ∉ discVars := fun h => hm (hmode _ h)
        have hacc : acc.1 = slots := by
          cases hi : Sim.indexOf? contVars it.var with
          | none => rw [hi] at h1; cases h1
          | some i =>
            rw [hi] at h1
            simp only [] at h1
            cases hval : it.val with
            | const v => rw [hval] at h1; cases h1
            | member k v => rw [hval] at h1; cases h1
            | mapCall f => rw [hval] at h1; cases h1
            | arith e =>
              rw [hval] at h1
              simp only [] at h1
              obtain ⟨rng, _, h1⟩ := (bind_ok_iff _ _ _).1 h1
              by_cases hcond : i < rect.1.length ∧ i < rect.2.length
              · rw [if_pos hcond] at h1
                injection h1 with h1
                rw [← h1]
              · rw [if_neg hcond] at h1; cases h1
        obtain ⟨a1, a2⟩ := acc
        simp only at hacc
        subst hacc
        obtain ⟨k1, k2⟩ := ih _ _ r hn.2 hl (fun it' h => hx it' (by simp [h])) h2
        refine ⟨k1, fun j v s hv hs' => ?_⟩
        obtain ⟨m1, m2⟩ := k2 j v s hv hs'
        have hne : it.var ≠ v := fun e => hnd' (e ▸ List.mem_of_getElem? hv)
        refine ⟨fun it' hit' hv' => ?_, fun hno => m2 (fun it' h => hno it' (by simp [h]))⟩
        rcases List.mem_cons.1 hit' with rfl | hit'
        · exact absurd hv' hne
        · exact m1 it' hit' hv'
  obtain ⟨k1, k2⟩ := key items _ rect r hvars (by simpa using hlen) hex hr1
  constructor
  · rintro ⟨hl, hg⟩
    refine ⟨by rw [hl, k1, hlen], fun i v y hv hy => ?_⟩
    obtain ⟨y1, y2⟩ := List.getElem?_eq_some_iff.1 hy
    have hi : i < r.1.length := by omega
    obtain ⟨m1, m2⟩ := k2 i v r.1[i] hv (List.getElem?_eq_getElem hi)
    have hmem := hg i y1 hi
    simp only [List.get_eq_getElem, y2] at hmem
    refine ⟨fun it hit hv' => (m1 it hit hv' y).1 hmem, fun hno => ?_⟩
    have := m2 hno
    rw [List.getElem?_map, Option.map_eq_some_iff] at this
    obtain ⟨m, hm1, hm2⟩ := this
    rw [← hm2] at hmem
    simp only [List.mem_singleton] at hmem
    rw [hm1, hmem]
  · rintro ⟨hl, hg⟩
    refine ⟨by omega, fun i h1 h2 => ?_⟩
    have hiv : i < discVars.length := by omega
    simp only [List.get_eq_getElem]
    obtain ⟨m1, m2⟩ := k2 i discVars[i] r.1[i] (List.getElem?_eq_getElem hiv) (List.getElem?_eq_getElem h2)
    obtain ⟨n1, n2⟩ := hg i discVars[i] dest[i] (List.getElem?_eq_getElem hiv) (List.getElem?_eq_getElem h1)
    by_cases hno : ∀ it ∈ items, it.var ≠ discVars[i]
    · have h3 := m2 hno
      rw [List.getElem?_map, n2 hno] at h3
      simp only [Option.map_some, Option.some.injEq] at h3
      rw [← h3]
      simp
    · push Not at hno
      obtain ⟨it, hit, hv⟩ := hno
      exact (m1 it hit hv _).2 (n1 it hit hv)

end

/-! ### a case that meets the hypotheses, and the cases that fail -/

/-- Texts of some numbers. -/
def exSh (q : ℚ) : Text :=
  if q = -1 then "-1.0".toList else if q = 1 then "1.0".toList else if q = 2 then "2.0".toList else if q = 5 then "5.0".toList else "6.0".toList

/-- The numbers that some texts denote. -/
def exRd (t : Text) : Option ℚ :=
  if t = "-1.0".toList then some (-1) else if t = "1.0".toList then some 1 else if t = "2.0".toList then some 2
  else if t = "5.0".toList then some 5 else if t = "6.0".toList then some 6 else if t = "1.02".toList then some (102 / 100)
  else if t = "2".toList then some 2 else none

def exX : Text := "ego.x".toList
def exV : Text := "ego.v".toList
def exX2 : Text := "ego.x2".toList

/-- `ego.x * ego.v - 2 * ego.x` for `ego.x` in `[-1, 2]`, `ego.v` in `[1, 5]` -/
def exD : Dict Text (ℚ × ℚ) := [(exX, (-1, 2)), (exV, (1, 5))]
def exE : Ex := .sub (.mul (.atom exX) (.atom exV)) (.mul (.atom "2".toList) (.atom exX))

/-- The range of that expression; its value where `ego.x = 0` and `ego.v = 3`, for instance, is in it. -/
example : MultiAffine exRd (fun t => t ∈ exD.map Prod.fst) exE ∧ Readable exSh exRd exD exE ∧ NoVarPow exD exE ∧
    InRange exD (fun t => if t = exX then some 0 else if t = exV then some 3 else none) ∧
    resetRange exSh exRd exD exE = .ok (-3, 6) := by
  refine ⟨?_, ?_, ?_, ?_, by decide +kernel⟩
  · refine .sub _ _ (.mul _ _ ?_ (.var _ (by decide +kernel)) (.var _ (by decide +kernel))) (.mul _ _ ?_ (.closed _ ?_ 2 (by decide +kernel)) (.var _ (by decide +kernel)))
    · intro t _ h1 h2
      simp only [Occurs, Ex.atoms, List.mem_singleton] at h1 h2
      rw [h1] at h2
      exact absurd h2 (by decide +kernel)
    · intro t _ h1 h2
      simp only [Occurs, Ex.atoms, List.mem_singleton] at h1 h2
      rw [h1] at h2
      exact absurd h2 (by decide +kernel)
    · intro t ht
      simp only [Occurs, Ex.atoms, List.mem_singleton] at ht
      subst ht
      decide +kernel
  · refine ⟨by decide +kernel, by decide +kernel, ?_, ?_⟩
    · have h : ∀ kv ∈ exD, ∀ t ∈ exE.atoms, kv.1 <:+: t → t = kv.1 := by decide +kernel
      exact h
    · have h : ∀ kv ∈ exD, ∀ kv' ∈ exD, (¬ kv.1 <:+: exSh kv'.2.1 ∧ exRd (exSh kv'.2.1) = some kv'.2.1) ∧
          (¬ kv.1 <:+: exSh kv'.2.2 ∧ exRd (exSh kv'.2.2) = some kv'.2.2) := by decide +kernel
      intro kv hkv kv' hkv' v hv
      rcases hv with rfl | rfl
      · exact (h kv hkv kv' hkv').1
      · exact (h kv hkv kv' hkv').2
  · simp [NoVarPow, exE]
  · intro t
    have hne : exV ≠ exX := by decide +kernel
    by_cases h1 : t = exX
    · subst h1
      have : Dict.get? exD exX = some (-1, 2) := by decide +kernel
      rw [this]
      exact ⟨0, by simp, by norm_num, by norm_num⟩
    · by_cases h2 : t = exV
      · subst h2
        have : Dict.get? exD exV = some (1, 5) := by decide +kernel
        rw [this]
        exact ⟨3, by simp [hne], by norm_num, by norm_num⟩
      · have : Dict.get? exD t = none := by
          rw [Dict.get?_none_iff]
          simp [exD, h1, h2]
        rw [this]
        simp [h1, h2]

/-- Two resets of a transition: a variable and the mode. -/
def exItems : List (Item ℚ String Unit) := [⟨"x", .arith exE, (), exD⟩, ⟨"agent_mode", .member true "Brake", (), exD⟩]

example : applyReset exSh exRd ["x", "v"] ["agent_mode"] ["Normal"] ([-1, 1], [2, 5]) exItems = .ok ([["Brake"]], ([-3, 1], [6, 5])) ∧
    After exRd ["x", "v"] exItems (fun _ t => if t = exX then some 0 else if t = exV then some 3 else none) [0, 3] [0, 3] ∧
    ModeAfter ["agent_mode"] exItems ["Normal"] ["Brake"] := by
  refine ⟨by decide +kernel, ⟨rfl, ?_⟩, ⟨rfl, ?_⟩⟩
  · intro i v hv
    have hx : value exRd (fun t => if t = exX then some 0 else if t = exV then some 3 else none) exE = some 0 := by decide +kernel
    match i with
    | 0 =>
      simp only [List.getElem?_cons_zero, Option.some.injEq] at hv
      subst hv
      refine ⟨fun it hit hvar => ?_, fun h => rfl⟩
      simp only [exItems, List.mem_cons, List.not_mem_nil, or_false] at hit
      rcases hit with rfl | rfl
      · exact ⟨exE, rfl, 0, rfl, hx⟩
      · exact absurd hvar (by decide +kernel)
    | 1 =>
      simp only [List.getElem?_cons_succ, List.getElem?_cons_zero, Option.some.injEq] at hv
      subst hv
      refine ⟨fun it hit hvar => ?_, fun h => rfl⟩
      simp only [exItems, List.mem_cons, List.not_mem_nil, or_false] at hit
      rcases hit with rfl | rfl
      · exact absurd hvar (by decide +kernel)
      · exact absurd hvar (by decide +kernel)
    | i + 2 => simp at hv
  · intro i v y hv hy
    match i with
    | 0 =>
      simp only [List.getElem?_cons_zero, Option.some.injEq] at hv hy
      subst hv; subst hy
      refine ⟨fun it hit hvar => ?_, fun h => absurd rfl (h ⟨"agent_mode", .member true "Brake", (), exD⟩ (by simp [exItems]))⟩
      simp only [exItems, List.mem_cons, List.not_mem_nil, or_false] at hit
      rcases hit with rfl | rfl
      · exact absurd hvar (by decide +kernel)
      · exact .member _
    | i + 1 => simp at hv

/-- **C26** fails for `ego.x * ego.x` with `ego.x` in `[-1, 1]`: the range found is `[1, 1]`, but the value at `0` is `0`. -/
theorem C26_square_violated : ∃ (D : Dict Text (ℚ × ℚ)) (e : Ex) (vars : Text → Option ℚ) (r : ℚ × ℚ) (y : ℚ),
    D = [(exX, (-1, 1))] ∧ e = .mul (.atom exX) (.atom exX) ∧ InRange D vars ∧ Readable exSh exRd D e ∧
    resetRange exSh exRd D e = .ok r ∧ value exRd vars e = some y ∧ ¬ (r.1 ≤ y ∧ y ≤ r.2) := by
  refine ⟨_, _, fun t => if t = exX then some 0 else none, (1, 1), 0, rfl, rfl, ?_, ?_, by decide +kernel, by decide +kernel, by norm_num⟩
  · intro t
    by_cases h1 : t = exX
    · subst h1; exact ⟨0, by simp, by norm_num, by norm_num⟩
    · have : Dict.get? [(exX, ((-1, 1) : ℚ × ℚ))] t = none := by
        rw [Dict.get?_none_iff]; simp [h1]
      rw [this]; simp [h1]
  · refine ⟨by decide +kernel, by decide +kernel, ?_, ?_⟩
    · have h : ∀ kv ∈ [(exX, ((-1, 1) : ℚ × ℚ))], ∀ t ∈ (Ex.mul (.atom exX) (.atom exX)).atoms, kv.1 <:+: t → t = kv.1 := by decide +kernel
      exact h
    · have h : ∀ kv ∈ [(exX, ((-1, 1) : ℚ × ℚ))], ∀ kv' ∈ [(exX, ((-1, 1) : ℚ × ℚ))],
          (¬ kv.1 <:+: exSh kv'.2.1 ∧ exRd (exSh kv'.2.1) = some kv'.2.1) ∧
          (¬ kv.1 <:+: exSh kv'.2.2 ∧ exRd (exSh kv'.2.2) = some kv'.2.2) := by decide +kernel
      intro kv hkv kv' hkv' v hv
      rcases hv with rfl | rfl
      · exact (h kv hkv kv' hkv').1
      · exact (h kv hkv kv' hkv').2

/-- **C26** fails when the name of one variable begins with the name of another: with `ego.x = 1` and `ego.x2` in `[5, 6]`, the
expression `ego.x2` becomes the text `1.02`. -/
theorem C26_names_violated : ∃ (D : Dict Text (ℚ × ℚ)) (e : Ex) (vars : Text → Option ℚ) (r : ℚ × ℚ) (y : ℚ),
    D = [(exX, (1, 1)), (exX2, (5, 6))] ∧ e = .atom exX2 ∧ InRange D vars ∧ Between exRd D e ∧
    resetRange exSh exRd D e = .ok r ∧ value exRd vars e = some y ∧ ¬ (r.1 ≤ y ∧ y ≤ r.2) := by
  have hne : exX2 ≠ exX := by decide +kernel
  refine ⟨_, _, fun t => if t = exX then some 1 else if t = exX2 then some 5 else none, (102 / 100, 102 / 100), 5, rfl, rfl, ?_, ?_,
    by decide +kernel, by decide +kernel, by norm_num⟩
  · intro t
    by_cases h1 : t = exX
    · subst h1; exact ⟨1, by simp, by norm_num, by norm_num⟩
    · by_cases h2 : t = exX2
      · subst h2
        have : Dict.get? [(exX, ((1, 1) : ℚ × ℚ)), (exX2, (5, 6))] exX2 = some (5, 6) := by decide +kernel
        rw [this]
        exact ⟨5, by simp [hne], by norm_num, by norm_num⟩
      · have : Dict.get? [(exX, ((1, 1) : ℚ × ℚ)), (exX2, (5, 6))] t = none := by
          rw [Dict.get?_none_iff]; simp [h1, h2]
        rw [this]; simp [h1, h2]
  · exact C26_affine_partial exRd _ (by decide +kernel) _ (.var _ (by decide +kernel))

/-- **C26** fails for `ego.x ** 2` with `ego.x = -1`: the text evaluated is `-1.0 ** 2`. -/
theorem C26_power_violated : ∃ (D : Dict Text (ℚ × ℚ)) (e : Ex) (vars : Text → Option ℚ) (r : ℚ × ℚ) (y : ℚ),
    D = [(exX, (-1, -1))] ∧ e = .pow (.atom exX) 2 ∧ InRange D vars ∧
    resetRange exSh exRd D e = .ok r ∧ value exRd vars e = some y ∧ ¬ (r.1 ≤ y ∧ y ≤ r.2) := by
  refine ⟨_, _, fun t => if t = exX then some (-1) else none, (-1, -1), 1, rfl, rfl, ?_, by decide +kernel, by decide +kernel, by norm_num⟩
  intro t
  by_cases h1 : t = exX
  · subst h1; exact ⟨-1, by simp, by norm_num, by norm_num⟩
  · have : Dict.get? [(exX, ((-1, -1) : ℚ × ℚ))] t = none := by
      rw [Dict.get?_none_iff]; simp [h1]
    rw [this]; simp [h1]

/-- A mode that is set to the value of another mode variable keeps its old value: `next.agent_mode = ego.wish_mode` leaves `agent_mode`
at `Normal` although `wish_mode` is `Brake`. -/
theorem C26_copied_mode_violated :
    applyReset exSh exRd ["x"] ["agent_mode", "wish_mode"] ["Normal", "Brake"] ([0], [1])
      [(⟨"agent_mode", .arith (.atom "ego.wish_mode".toList), (), []⟩ : Item ℚ String Unit)] =
      .ok ([["Normal", "Brake"]], ([0], [1])) := by
  decide +kernel

end Verif.Props
