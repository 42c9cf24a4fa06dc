import Verif.Spec.StarReset
import Verif.Proofs.Reset
import Verif.Proofs.Star

/-! Helpers for C69. -/

set_option autoImplicit false
set_option linter.unusedSectionVars false

namespace Verif.Proofs.StarRst

open Verif Verif.Rst Verif.Rst.Spec Verif.Stars Verif.StarRst Verif.StarRst.Spec Verif.Proofs.Rst Finset

variable {K V D : Type} [Field K] [LinearOrder K]

theorem replace_not (s new : Text) (e : Ex) (h : ∀ t ∈ e.atoms, ¬ s <:+: t) : e.replace s new = e := by
  induction e with
  | atom t => simp only [Ex.replace]; rw [replaceText_not _ _ _ _ (h t (by simp [Ex.atoms]))]
  | neg a ih => simp only [Ex.replace]; rw [ih h]
  | pow a n ih => simp only [Ex.replace]; rw [ih h]
  | add a b iha ihb | sub a b iha ihb | mul a b iha ihb | div a b iha ihb =>
    simp only [Ex.replace]
    rw [iha (fun t ht => h t (by simp only [Ex.atoms, List.mem_append]; exact .inl ht)),
      ihb (fun t ht => h t (by simp only [Ex.atoms, List.mem_append]; exact .inr ht))]

theorem substState_eq (sh : K → Text) (sv : List Text) (xs : List K) : ∀ (i : Nat) (e : Ex), i + xs.length ≤ sv.length →
    substState sh sv i xs e = .ok (((sv.drop i).zip xs).foldl (fun (e : Ex) p => e.replace p.1 (sh p.2)) e) := by
  induction xs with
  | nil => intro i e _; simp [substState]
  | cons x xs ih =>
    intro i e hl
    simp only [List.length_cons] at hl
    have hi : i < sv.length := by omega
    rw [List.drop_eq_getElem_cons hi, List.zip_cons_cons, List.foldl_cons]
    simp only [substState]
    rw [List.getElem?_eq_getElem hi]
    simp only
    rw [ih (i + 1) _ (by omega)]
    by_cases hc : (e.atoms.any fun t => decide (sv[i] <:+: t)) = true
    · rw [if_pos hc]
    · rw [if_neg hc, replace_not]
      intro t ht hin
      exact hc (List.any_eq_true.2 ⟨t, ht, by simpa using hin⟩)

/-- The states as a list. -/
def vals (n : Nat) (x : Nat → K) : List K := (List.range n).map x

theorem zip_point (contVars : List String) (x : Nat → K) :
    (pointDict contVars x).zip (vals contVars.length x) =
      contVars.zipIdx.map (fun vi => (((egoName vi.1, (x vi.2, x vi.2)) : Text × (K × K)), x vi.2)) := by
  apply List.ext_getElem?
  intro i
  by_cases hi : i < contVars.length
  · rw [List.getElem?_eq_getElem (by simp [pointDict, vals, hi]), List.getElem?_eq_getElem (by simp [hi])]
    simp [pointDict, vals]
  · rw [List.getElem?_eq_none (by simp [pointDict, vals]; omega), List.getElem?_eq_none (by simp; omega)]

theorem combVal_point (contVars : List String) (x : Nat → K) :
    combVal (pointDict contVars x) (vals contVars.length x) = egoVars contVars x := by
  funext t
  unfold combVal egoVars
  rw [zip_point, List.find?_map, Option.map_map]
  rfl

/-- One reset expression, evaluated in the state `x`. -/
theorem eval_state (sh : K → Text) (rd : Text → Option K) (contVars : List String) (x : Nat → K) (e : Ex)
    (hR : Readable sh rd (pointDict contVars x) e) (hP : NoVarPow (pointDict contVars x) e) (y : K)
    (hy : value rd (egoVars contVars x) e = some y) :
    (substState sh (contVars.map egoName) 0 (vals contVars.length x) e).bind (fun e => e.eval rd) = .ok y := by
  rw [substState_eq _ _ _ _ _ (by simp [vals])]
  obtain ⟨h1, h2, h3, h4⟩ := hR
  have hin : ∀ v ∈ vals contVars.length x, ∃ kv ∈ pointDict contVars x, v = kv.2.1 := by
    intro v hv
    obtain ⟨i, hi, rfl⟩ := List.mem_map.1 hv
    rw [List.mem_range] at hi
    refine ⟨(egoName contVars[i], (x i, x i)), List.mem_map.2 ⟨(contVars[i], i), ?_, rfl⟩, rfl⟩
    exact List.mem_zipIdx_iff_getElem?.2 (List.getElem?_eq_getElem hi)
  have hzip : ((contVars.map egoName).drop 0).zip (vals contVars.length x) =
      ((pointDict contVars x).zip (vals contVars.length x)).map (fun sv => (sv.1.1, sv.2)) := by
    rw [zip_point, List.map_map]
    apply List.ext_getElem?
    intro i
    by_cases hi : i < contVars.length
    · rw [List.getElem?_eq_getElem (by simp [vals, hi]), List.getElem?_eq_getElem (by simp [hi])]
      simp [vals]
    · rw [List.getElem?_eq_none (by simp [vals]; omega), List.getElem?_eq_none (by simp; omega)]
  rw [hzip, List.foldl_map]
  exact eval_subst sh rd (pointDict contVars x) (pointDict contVars x) (vals contVars.length x) e (by simp [vals, pointDict]) (fun kv h => h)
    (fun kv hkv => h2 kv hkv) (fun kv hkv => h3 kv hkv)
    (fun kv hkv v hv => by obtain ⟨kv', h', rfl⟩ := hin v hv; exact (h4 kv hkv kv' h' _ (.inl rfl)).1)
    (fun v hv => by obtain ⟨kv', h', rfl⟩ := hin v hv; exact (h4 kv' h' kv' h' _ (.inl rfl)).2) hP y (by rw [combVal_point]; exact hy)

theorem afterDot_ego (v : String) : afterDot (egoName v) = .ok v.toList := by
  simp [egoName, egoText, afterDot]

/-- The entry of the variable is set. -/
theorem assignState_eq (contVars : List String) (var : String) (r : K) (n : Nat) : ∀ (i : Nat) (out : List K), i + n ≤ contVars.length →
    ∃ out', assignState (contVars.map egoName) var r i n out = .ok out' ∧ out'.length = out.length ∧
      ∀ j, j < out.length → out'[j]? = if i ≤ j ∧ j < i + n ∧ contVars[j]? = some var then some r else out[j]? := by
  induction n with
  | zero =>
    intro i out _
    refine ⟨out, rfl, rfl, fun j _ => ?_⟩
    rw [if_neg (by omega)]
  | succ n ih =>
    intro i out hl
    have hi : i < contVars.length := by omega
    have hsv : (contVars.map egoName)[i]? = some (egoName contVars[i]) := by simp [hi]
    obtain ⟨out', h1, h2, h3⟩ := ih (i + 1) (if var.toList = contVars[i].toList then out.set i r else out) (by omega)
    have hlen : (if var.toList = contVars[i].toList then out.set i r else out).length = out.length := by
      split <;> simp
    refine ⟨out', ?_, h2.trans hlen, fun j hj => ?_⟩
    · simp only [assignState, hsv, afterDot_ego, Except.bind]
      exact h1
    · rw [h3 j (by rw [hlen]; exact hj)]
      by_cases hji : j = i
      · subst hji
        rw [if_neg (by omega)]
        by_cases hv : var.toList = contVars[j].toList
        · have : contVars[j] = var := (String.toList_inj.1 hv).symm
          rw [if_pos hv, if_pos ⟨le_refl _, by omega, by rw [List.getElem?_eq_getElem hi, this]⟩]
          simp [hj]
        · rw [if_neg hv, if_neg]
          rintro ⟨_, _, h⟩
          rw [List.getElem?_eq_getElem hi, Option.some.injEq] at h
          exact hv (by rw [h])
      · have e1 : (if var.toList = contVars[i].toList then out.set i r else out)[j]? = out[j]? := by
          split
          · rw [List.getElem?_set_ne (fun h => hji h.symm)]
          · rfl
        rw [e1]
        by_cases hc : i + 1 ≤ j ∧ j < i + 1 + n ∧ contVars[j]? = some var
        · rw [if_pos hc, if_pos ⟨by omega, by omega, hc.2.2⟩]
        · rw [if_neg hc, if_neg]
          rintro ⟨a, b, c⟩
          exact hc ⟨by omega, by omega, c⟩

/-- All reset expressions, evaluated in the state `x`. -/
theorem resetFunc_eq (sh : K → Text) (rd : Text → Option K) (contVars : List String) (hnd : contVars.Nodup) (exprs : Dict Nat (String × Ex))
    (hk : (exprs.map Prod.fst).Nodup) (hv : ∀ x ∈ exprs, contVars[x.1]? = some x.2.1) (x : Vec K) (hl : x.len = contVars.length)
    (hR : ∀ p ∈ exprs, Readable sh rd (pointDict contVars x.at_) p.2.2 ∧ NoVarPow (pointDict contVars x.at_) p.2.2)
    (hval : ∀ p ∈ exprs, ∃ y, value rd (egoVars contVars x.at_) p.2.2 = some y) :
    ∃ y, resetFunc sh rd (contVars.map egoName) exprs x = .ok y ∧ y.len = contVars.length ∧
      (∀ p ∈ exprs, value rd (egoVars contVars x.at_) p.2.2 = some (y.at_ p.1)) ∧
      ∀ i < contVars.length, i ∉ exprs.map Prod.fst → y.at_ i = x.at_ i := by
  have hst : (List.range x.len).map x.at_ = vals contVars.length x.at_ := by rw [hl]; rfl
  have key : ∀ (l : Dict Nat (String × Ex)) (out : List K), (l.map Prod.fst).Nodup → (∀ p ∈ l, p ∈ exprs) → out.length = contVars.length →
      ∃ out', l.foldlM (resetStep sh rd (contVars.map egoName) (vals contVars.length x.at_)) out = .ok out' ∧ out'.length = contVars.length ∧
        (∀ p ∈ l, out'[p.1]? = value rd (egoVars contVars x.at_) p.2.2) ∧ ∀ i, i ∉ l.map Prod.fst → out'[i]? = out[i]? := by
    intro l
    induction l with
    | nil => intro out _ _ hlen; exact ⟨out, rfl, hlen, by simp, fun i _ => rfl⟩
    | cons p l ih =>
      intro out hn hsub hlen
      rw [List.map_cons, List.nodup_cons] at hn
      obtain ⟨y, hy⟩ := hval p (hsub p (by simp))
      have he := eval_state sh rd contVars x.at_ p.2.2 (hR p (hsub p (by simp))).1 (hR p (hsub p (by simp))).2 y hy
      obtain ⟨e, he1, he2⟩ := (bind_ok_iff _ _ _).1 he
      obtain ⟨o, ho1, ho2, ho3⟩ := assignState_eq contVars p.2.1 y contVars.length 0 out (by omega)
      obtain ⟨out', h1, h2, h3, h4⟩ := ih o hn.2 (fun q hq => hsub q (by simp [hq])) (ho2.trans hlen)
      have hpv := hv p (hsub p (by simp))
      have hpi : p.1 < contVars.length := (List.getElem?_eq_some_iff.1 hpv).1
      refine ⟨out', ?_, h2, ?_, ?_⟩
      · rw [List.foldlM_cons]
        have : resetStep sh rd (contVars.map egoName) (vals contVars.length x.at_) out p = .ok o := by
          unfold resetStep
          rw [he1]
          simp only [Except.bind]
          rw [he2]
          simp only
          rw [show (vals contVars.length x.at_).length = contVars.length by simp [vals]]
          exact ho1
        rw [this]
        exact h1
      · intro q hq
        rcases List.mem_cons.1 hq with rfl | hq
        · rw [h4 _ hn.1, ho3 _ (by omega), if_pos ⟨by omega, by omega, hpv⟩, hy]
        · exact h3 q hq
      · intro i hi
        rw [List.map_cons, List.mem_cons, not_or] at hi
        rw [h4 i hi.2]
        by_cases hil : i < out.length
        · rw [ho3 i hil, if_neg]
          rintro ⟨-, -, h⟩
          exact hi.1 ((List.getElem?_inj (by omega) hnd).1 (h.trans hpv.symm))
        · rw [List.getElem?_eq_none (by omega), List.getElem?_eq_none (by omega)]
  obtain ⟨out', h1, h2, h3, h4⟩ := key exprs (vals contVars.length x.at_) hk (fun p h => h) (by simp [vals])
  refine ⟨ofList out', ?_, by simp [ofList, h2], ?_, ?_⟩
  · unfold resetFunc
    simp only
    rw [hst, h1]
    rfl
  · intro p hp
    obtain ⟨y, hy⟩ := hval p hp
    have := h3 p hp
    rw [hy] at this
    simp only [ofList, this, Option.getD_some, hy]
  · intro i hi hni
    have := h4 i hni
    simp only [ofList, this]
    simp [vals, hi]

theorem set_of_not_mem {A B : Type} [DecidableEq A] (d : Dict A B) (k : A) (v : B) (h : k ∉ d.map Prod.fst) : Dict.set d k v = d ++ [(k, v)] := by
  induction d with
  | nil => rfl
  | cons p d ih =>
    obtain ⟨k', v'⟩ := p
    rw [List.map_cons, List.mem_cons, not_or] at h
    simp only [Dict.set]
    rw [if_neg (fun e => h.1 (by first | exact e | exact e.symm)), ih h.2]
    rfl

/-- What the loop over the resets collects. -/
theorem collect_spec (contVars discVars : List String) (hmode : ∀ v ∈ contVars, Sim.hasMode v = false) (hnd : contVars.Nodup) (items : List (SItem V D))
    (hvars : (items.map SItem.var).Nodup) (a0 acc : Acc V)
    (h : items.foldlM (collectOne contVars discVars) a0 = .ok acc)
    (hcont : ∀ it ∈ items, it.var ∈ contVars → statevec it.cont = contVars.map egoName)
    (h0k : (a0.exprs.map Prod.fst).Nodup) (h0v : ∀ x ∈ a0.exprs, contVars[x.1]? = some x.2.1)
    (h0s : a0.exprs ≠ [] → a0.sv = contVars.map egoName) (h0d : ∀ x ∈ a0.exprs, ∀ it ∈ items, it.var ≠ x.2.1) :
    (acc.exprs.map Prod.fst).Nodup ∧ (∀ x ∈ acc.exprs, contVars[x.1]? = some x.2.1) ∧ (acc.exprs ≠ [] → acc.sv = contVars.map egoName) ∧
    (∀ x, x ∈ acc.exprs ↔ x ∈ a0.exprs ∨ ∃ it ∈ items, it.var = x.2.1 ∧ it.val = .arith x.2.2 ∧ contVars[x.1]? = some it.var) ∧
    (∀ it ∈ items, it.var ∈ contVars → ∃ e, it.val = .arith e) := by
  induction items generalizing a0 with
  | nil =>
    have : a0 = acc := by simpa [pure, Except.pure] using h
    subst this
    exact ⟨h0k, h0v, h0s, by simp, by simp⟩
  | cons it items ih =>
    obtain ⟨a1, h1, h2⟩ := (foldlM_cons_ok _ _ _ _ _).1 h
    rw [List.map_cons, List.nodup_cons] at hvars
    unfold collectOne at h1
    by_cases hm : Sim.hasMode it.var = true
    · rw [if_pos hm] at h1
      have hnc : it.var ∉ contVars := fun hc => by rw [hmode _ hc] at hm; cases hm
      have ha1 : a1.exprs = a0.exprs ∧ a1.sv = a0.sv := by
        split at h1
        · cases h1
        · split at h1
          · cases h1
          · injection h1 with h1; subst h1; exact ⟨rfl, rfl⟩
      obtain ⟨i1, i2, i3, i4, i5⟩ := ih hvars.2 a1 h2 (fun it' hit' => hcont it' (by simp [hit'])) (by rw [ha1.1]; exact h0k)
        (by rw [ha1.1]; exact h0v) (by rw [ha1.1, ha1.2]; exact h0s) (by rw [ha1.1]; exact fun x hx it' hit' => h0d x hx it' (by simp [hit']))
      refine ⟨i1, i2, i3, fun x => ?_, fun it' hit' hc => ?_⟩
      · rw [i4 x, ha1.1]
        constructor
        · rintro (hx | ⟨it', hit', hx⟩)
          · exact .inl hx
          · exact .inr ⟨it', by simp [hit'], hx⟩
        · rintro (hx | ⟨it', hit', hx⟩)
          · exact .inl hx
          · rcases List.mem_cons.1 hit' with rfl | hit'
            · exact absurd (List.mem_of_getElem? hx.2.2) hnc
            · exact .inr ⟨it', hit', hx⟩
      · rcases List.mem_cons.1 hit' with rfl | hit'
        · exact absurd hc hnc
        · exact i5 it' hit' hc
    · rw [if_neg hm] at h1
      split at h1
      · cases h1
      · rename_i i hi
        split at h1
        · rename_i e hval
          injection h1 with h1
          have hci := indexOf_some hi
          have hnew : i ∉ a0.exprs.map Prod.fst := by
            intro hin
            obtain ⟨x, hx, rfl⟩ := List.mem_map.1 hin
            have := (h0v x hx).symm.trans hci
            exact h0d x hx it (by simp) (Option.some.inj this).symm
          have hset : a1.exprs = a0.exprs ++ [(i, (it.var, e))] := by
            subst h1
            exact set_of_not_mem _ _ _ hnew
          have hmem : ∀ x, x ∈ a1.exprs ↔ x ∈ a0.exprs ∨ x = (i, (it.var, e)) := by
            intro x; rw [hset]; simp
          have hsv : a1.sv = contVars.map egoName := by
            subst h1; exact hcont it (by simp) (List.mem_of_getElem? hci)
          obtain ⟨i1, i2, i3, i4, i5⟩ := ih hvars.2 a1 h2 (fun it' hit' => hcont it' (by simp [hit'])) (by
              rw [hset, List.map_append, List.nodup_append]
              exact ⟨h0k, by simp, by rintro a ha b hb rfl; simp at hb; subst hb; exact hnew ha⟩)
            (by
              intro x hx
              rcases (hmem x).1 hx with hx | rfl
              · exact h0v x hx
              · exact hci) (fun _ => hsv) (by
              intro x hx it' hit'
              rcases (hmem x).1 hx with hx | rfl
              · exact h0d x hx it' (by simp [hit'])
              · exact fun he => hvars.1 (List.mem_map.2 ⟨it', hit', he⟩))
          refine ⟨i1, i2, i3, fun x => ?_, fun it' hit' hc => ?_⟩
          · rw [i4 x, hmem x]
            constructor
            · rintro ((hx | rfl) | ⟨it', hit', hx⟩)
              · exact .inl hx
              · exact .inr ⟨it, by simp, rfl, hval, hci⟩
              · exact .inr ⟨it', by simp [hit'], hx⟩
            · rintro (hx | ⟨it', hit', hx⟩)
              · exact .inl (.inl hx)
              · rcases List.mem_cons.1 hit' with rfl | hit'
                · left; right
                  obtain ⟨q1, q2, q3⟩ := hx
                  have e1 : x.1 = i := (List.getElem?_inj (List.getElem?_eq_some_iff.1 q3).1 hnd).1 (q3.trans hci.symm)
                  rw [hval] at q2
                  injection q2 with q2
                  exact Prod.ext e1 (Prod.ext q1.symm q2.symm)
                · exact .inr ⟨it', hit', hx⟩
          · rcases List.mem_cons.1 hit' with rfl | hit'
            · exact ⟨e, hval⟩
            · exact i5 it' hit' hc
        · cases h1

/-- Images under affine maps: the map is used at the center, and at the center plus a basis vector. -/
theorem applyMap_affine (s s' : StarSet K) (hs : Built s) (f : Vec K → Except String (Vec K)) (M : Nat → Nat → K) (b : Nat → K)
    (hf : ∀ x : Vec K, x.len = s.center.len → Evaluated s x.at_ →
      ∃ y, f x = .ok y ∧ y.len = s.center.len ∧ ∀ d < s.center.len, y.at_ d = affine s.center.len M b x.at_ d)
    (h : applyMap f s = .ok s') :
    s'.center.len = s.center.len ∧ ∀ y : Nat → K, InStar s' y ↔ ∃ x, InStar s x ∧ ∀ d < s.center.len, y d = affine s.center.len M b x d := by
  obtain ⟨h1, h2, h3⟩ := (built_iff s).1 hs
  obtain ⟨c, hc, hcl, hca⟩ := hf s.center rfl (.inl fun _ => rfl)
  obtain ⟨rows, hr, hrl, hrow⟩ := mapM_range_ex (newVec f s c)
    (fun i v => ∀ d < s.center.len, v.at_ d = affine s.center.len M b (fun k => s.center.at_ k + s.basis.at_ i k) d - affine s.center.len M b s.center.at_ d)
    s.basis.rows (by
      intro i hi
      have hl : s.center.len = s.basis.cols := by rcases h1 with h1 | h1 <;> omega
      obtain ⟨y, hy, hyl, hya⟩ := hf ⟨s.center.len, fun k => s.center.at_ k + s.basis.at_ i k⟩ rfl (.inr ⟨i, hi, fun _ => rfl⟩)
      exact ⟨_, newVec_ok f s c i _ y hl rfl hy hyl hcl, fun d hd => by dsimp only; rw [hya d hd, hca d hd]⟩)
  have hs' : s' = ⟨c, ofRows s.basis.cols rows, s.C, s.g⟩ := by
    unfold applyMap at h
    rw [hc] at h
    simp only [Except.bind] at h
    rw [hr] at h
    simp only [superposition] at h
    rw [if_pos (by simp [ofRows, hrl]), new_ok_iff] at h
    exact h.2.2.2
  subst hs'
  refine ⟨hcl, ?_⟩
  intro y
  unfold InStar
  simp only [hcl]
  have hm : (ofRows s.basis.cols rows).rows = s.basis.rows := by simp [ofRows, hrl]
  rw [hm]
  refine image_iff _ _ _ M b _ _ _ _ _ _ _ hca (fun j hj d hd => ?_)
  obtain ⟨v, hv, hva⟩ := hrow j hj
  rw [ofRows_at _ _ _ _ _ hv, hva d hd]

end Verif.Proofs.StarRst
