import Verif.Spec.Guard
import Verif.Proofs.Basic
import Verif.Proofs.Contains

set_option autoImplicit false
set_option linter.unusedSectionVars false

namespace Verif.Grd

open Verif.Grd.Spec

variable {K : Type}

/-! ### Values depend only on the variables that occur -/

mutual
theorem evT_congr [Field K] (W : World K) (ρ σ : State K) : ∀ t : Term K, hasRedT t = false →
    (∀ k ∈ keysT t, look ρ k = look σ k) → evT W ρ t = evT W σ t
  | .lit v, _, _ => by simp [evT]
  | .var k, _, h => by simpa [evT] using h k (by simp [keysT])
  | .neg t, hr, h => by simp only [evT]; rw [evT_congr W ρ σ t (by simpa [hasRedT] using hr) (by simpa [keysT] using h)]
  | .bin op s t, hr, h => by
    simp only [hasRedT, Bool.or_eq_false_iff] at hr
    simp only [keysT, List.mem_append] at h
    simp only [evT]
    rw [evT_congr W ρ σ s hr.1 (fun k hk => h k (.inl hk)), evT_congr W ρ σ t hr.2 (fun k hk => h k (.inr hk))]
  | .call f args, hr, h => by
    simp only [evT]; rw [evTs_congr W ρ σ args (by simpa [hasRedT] using hr) (by simpa [keysT] using h)]
  | .lane q l xs, hr, h => by
    simp only [keysT, List.mem_append] at h
    simp only [evT]
    rw [evT_congr W ρ σ l (by simpa [hasRedT] using hr) (fun k hk => h k (.inl hk))]
    congr 2
    exact List.map_congr_left (fun k hk => by rw [h k (.inr hk)])
  | .sum x l t, hr, _ => by simp [hasRedT] at hr
  | .sumList ts, hr, h => by
    simp only [evT]; rw [evTs_congr W ρ σ ts (by simpa [hasRedT] using hr) (by simpa [keysT] using h)]
theorem evTs_congr [Field K] (W : World K) (ρ σ : State K) : ∀ ts : Terms K, hasRedTs ts = false →
    (∀ k ∈ keysTs ts, look ρ k = look σ k) → evTs W ρ ts = evTs W σ ts
  | .nil, _, _ => by simp [evTs]
  | .cons t ts, hr, h => by
    simp only [hasRedTs, Bool.or_eq_false_iff] at hr
    simp only [keysTs, List.mem_append] at h
    simp only [evTs]
    rw [evT_congr W ρ σ t hr.1 (fun k hk => h k (.inl hk)), evTs_congr W ρ σ ts hr.2 (fun k hk => h k (.inr hk))]
end

variable [Field K] [LinearOrder K]

mutual
theorem evF_congr (W : World K) (ρ σ : State K) : ∀ f : Fml K, hasRedF f = false →
    (∀ k ∈ keysF f, look ρ k = look σ k) → (evF W ρ f ↔ evF W σ f)
  | .bool b, _, _ => by simp [evF]
  | .cmp op s t, hr, h => by
    simp only [hasRedF, Bool.or_eq_false_iff] at hr
    simp only [keysF, List.mem_append] at h
    simp only [evF]
    rw [evT_congr W ρ σ s hr.1 (fun k hk => h k (.inl hk)), evT_congr W ρ σ t hr.2 (fun k hk => h k (.inr hk))]
  | .and fs, hr, h => by
    simp only [evF]; exact evAll_congr W ρ σ fs (by simpa [hasRedF] using hr) (by simpa [keysF] using h)
  | .or fs, hr, h => by
    simp only [evF]; exact evAny_congr W ρ σ fs (by simpa [hasRedF] using hr) (by simpa [keysF] using h)
  | .not f, hr, h => by
    simp only [evF]; rw [evF_congr W ρ σ f (by simpa [hasRedF] using hr) (by simpa [keysF] using h)]
  | .callb f args, hr, h => by
    simp only [evF]; rw [evTs_congr W ρ σ args (by simpa [hasRedF] using hr) (by simpa [keysF] using h)]
  | .red b x l f, hr, _ => by simp [hasRedF] at hr
theorem evAll_congr (W : World K) (ρ σ : State K) : ∀ f : Fmls K, hasRedFs f = false →
    (∀ k ∈ keysFs f, look ρ k = look σ k) → (evAll W ρ f ↔ evAll W σ f)
  | .nil, _, _ => by simp [evAll]
  | .cons f fs, hr, h => by
    simp only [hasRedFs, Bool.or_eq_false_iff] at hr
    simp only [keysFs, List.mem_append] at h
    simp only [evAll]
    rw [evF_congr W ρ σ f hr.1 (fun k hk => h k (.inl hk)), evAll_congr W ρ σ fs hr.2 (fun k hk => h k (.inr hk))]
theorem evAny_congr (W : World K) (ρ σ : State K) : ∀ f : Fmls K, hasRedFs f = false →
    (∀ k ∈ keysFs f, look ρ k = look σ k) → (evAny W ρ f ↔ evAny W σ f)
  | .nil, _, _ => by simp [evAny]
  | .cons f fs, hr, h => by
    simp only [hasRedFs, Bool.or_eq_false_iff] at hr
    simp only [keysFs, List.mem_append] at h
    simp only [evAny]
    rw [evF_congr W ρ σ f hr.1 (fun k hk => h k (.inl hk)), evAny_congr W ρ σ fs hr.2 (fun k hk => h k (.inr hk))]
end

/-! ### Substitution -/

theorem look_sub (ρ : State K) (x l : String) (i : Nat) (k : Key) : look ρ (subKey x l i k) = look (bindTo ρ x l i) k := by
  cases k with
  | attr n a => by_cases h : n = x <;> simp [subKey, look, bindTo, h]
  | _ => simp [subKey, look, bindTo]

mutual
theorem evT_sub (W : World K) (ρ : State K) (x l : String) (i : Nat) : ∀ t : Term K, hasRedT t = false →
    evT W ρ (subT x l i t) = evT W (bindTo ρ x l i) t
  | .lit v, _ => by simp [subT, evT]
  | .var k, _ => by simp [subT, evT, look_sub]
  | .neg t, hr => by simp only [subT, evT]; rw [evT_sub W ρ x l i t (by simpa [hasRedT] using hr)]
  | .bin op s t, hr => by
    simp only [hasRedT, Bool.or_eq_false_iff] at hr
    simp only [subT, evT]
    rw [evT_sub W ρ x l i s hr.1, evT_sub W ρ x l i t hr.2]
  | .call f args, hr => by
    simp only [subT, evT]; rw [evTs_sub W ρ x l i args (by simpa [hasRedT] using hr)]
  | .lane q k xs, hr => by
    simp only [subT, evT]
    rw [evT_sub W ρ x l i k (by simpa [hasRedT] using hr)]
    simp only [List.map_map, Function.comp_def, look_sub]
  | .sum y m t, hr => by simp [hasRedT] at hr
  | .sumList ts, hr => by
    simp only [subT, evT]; rw [evTs_sub W ρ x l i ts (by simpa [hasRedT] using hr)]
theorem evTs_sub (W : World K) (ρ : State K) (x l : String) (i : Nat) : ∀ t : Terms K, hasRedTs t = false →
    evTs W ρ (subTs x l i t) = evTs W (bindTo ρ x l i) t
  | .nil, _ => by simp [subTs, evTs]
  | .cons t ts, hr => by
    simp only [hasRedTs, Bool.or_eq_false_iff] at hr
    simp only [subTs, evTs]
    rw [evT_sub W ρ x l i t hr.1, evTs_sub W ρ x l i ts hr.2]
end

mutual
theorem evF_sub (W : World K) (ρ : State K) (x l : String) (i : Nat) : ∀ f : Fml K, hasRedF f = false →
    (evF W ρ (subF x l i f) ↔ evF W (bindTo ρ x l i) f)
  | .bool b, _ => by simp [subF, evF]
  | .cmp op s t, hr => by
    simp only [hasRedF, Bool.or_eq_false_iff] at hr
    simp only [subF, evF]
    rw [evT_sub W ρ x l i s hr.1, evT_sub W ρ x l i t hr.2]
  | .and fs, hr => by
    simp only [subF, evF]; exact evAll_sub W ρ x l i fs (by simpa [hasRedF] using hr)
  | .or fs, hr => by
    simp only [subF, evF]; exact evAny_sub W ρ x l i fs (by simpa [hasRedF] using hr)
  | .not f, hr => by
    simp only [subF, evF]; rw [evF_sub W ρ x l i f (by simpa [hasRedF] using hr)]
  | .callb f args, hr => by
    simp only [subF, evF]; rw [evTs_sub W ρ x l i args (by simpa [hasRedF] using hr)]
  | .red b y m f, hr => by simp [hasRedF] at hr
theorem evAll_sub (W : World K) (ρ : State K) (x l : String) (i : Nat) : ∀ f : Fmls K, hasRedFs f = false →
    (evAll W ρ (subFs x l i f) ↔ evAll W (bindTo ρ x l i) f)
  | .nil, _ => by simp [subFs, evAll]
  | .cons f fs, hr => by
    simp only [hasRedFs, Bool.or_eq_false_iff] at hr
    simp only [subFs, evAll]
    rw [evF_sub W ρ x l i f hr.1, evAll_sub W ρ x l i fs hr.2]
theorem evAny_sub (W : World K) (ρ : State K) (x l : String) (i : Nat) : ∀ f : Fmls K, hasRedFs f = false →
    (evAny W ρ (subFs x l i f) ↔ evAny W (bindTo ρ x l i) f)
  | .nil, _ => by simp [subFs, evAny]
  | .cons f fs, hr => by
    simp only [hasRedFs, Bool.or_eq_false_iff] at hr
    simp only [subFs, evAny]
    rw [evF_sub W ρ x l i f hr.1, evAny_sub W ρ x l i fs hr.2]
end

/-! ### Substitution adds no reduction -/

mutual
theorem noRed_subT (x l : String) (i : Nat) : ∀ t : Term K, hasRedT t = false → hasRedT (subT x l i t) = false
  | .lit v, _ => by simp [subT, hasRedT]
  | .var k, _ => by simp [subT, hasRedT]
  | .neg t, hr => by simpa [subT, hasRedT] using noRed_subT x l i t (by simpa [hasRedT] using hr)
  | .bin op s t, hr => by
    simp only [hasRedT, Bool.or_eq_false_iff] at hr
    simp [subT, hasRedT, noRed_subT x l i s hr.1, noRed_subT x l i t hr.2]
  | .call f args, hr => by simpa [subT, hasRedT] using noRed_subTs x l i args (by simpa [hasRedT] using hr)
  | .lane q k xs, hr => by simpa [subT, hasRedT] using noRed_subT x l i k (by simpa [hasRedT] using hr)
  | .sum y m t, hr => by simp [hasRedT] at hr
  | .sumList ts, hr => by simpa [subT, hasRedT] using noRed_subTs x l i ts (by simpa [hasRedT] using hr)
theorem noRed_subTs (x l : String) (i : Nat) : ∀ t : Terms K, hasRedTs t = false → hasRedTs (subTs x l i t) = false
  | .nil, _ => by simp [subTs, hasRedTs]
  | .cons t ts, hr => by
    simp only [hasRedTs, Bool.or_eq_false_iff] at hr
    simp [subTs, hasRedTs, noRed_subT x l i t hr.1, noRed_subTs x l i ts hr.2]
end

mutual
theorem noRed_subF (x l : String) (i : Nat) : ∀ f : Fml K, hasRedF f = false → hasRedF (subF x l i f) = false
  | .bool b, _ => by simp [subF, hasRedF]
  | .cmp op s t, hr => by
    simp only [hasRedF, Bool.or_eq_false_iff] at hr
    simp [subF, hasRedF, noRed_subT x l i s hr.1, noRed_subT x l i t hr.2]
  | .and fs, hr => by simpa [subF, hasRedF] using noRed_subFs x l i fs (by simpa [hasRedF] using hr)
  | .or fs, hr => by simpa [subF, hasRedF] using noRed_subFs x l i fs (by simpa [hasRedF] using hr)
  | .not f, hr => by simpa [subF, hasRedF] using noRed_subF x l i f (by simpa [hasRedF] using hr)
  | .callb f args, hr => by simpa [subF, hasRedF] using noRed_subTs x l i args (by simpa [hasRedF] using hr)
  | .red b y m f, hr => by simp [hasRedF] at hr
theorem noRed_subFs (x l : String) (i : Nat) : ∀ f : Fmls K, hasRedFs f = false → hasRedFs (subFs x l i f) = false
  | .nil, _ => by simp [subFs, hasRedFs]
  | .cons f fs, hr => by
    simp only [hasRedFs, Bool.or_eq_false_iff] at hr
    simp [subFs, hasRedFs, noRed_subF x l i f hr.1, noRed_subFs x l i fs hr.2]
end

/-! ### Lists of elements -/

theorem evTs_ofList (W : World K) (ρ : State K) (ts : List (Term K)) : evTs W ρ (.ofList ts) = ts.map (evT W ρ) := by
  induction ts with
  | nil => simp [Terms.ofList, evTs]
  | cons t ts ih => simp [Terms.ofList, evTs, ih]

theorem evAll_ofList (W : World K) (ρ : State K) (fs : List (Fml K)) : evAll W ρ (.ofList fs) ↔ ∀ f ∈ fs, evF W ρ f := by
  induction fs with
  | nil => simp [Fmls.ofList, evAll]
  | cons t ts ih => simp [Fmls.ofList, evAll, ih]

theorem evAny_ofList (W : World K) (ρ : State K) (fs : List (Fml K)) : evAny W ρ (.ofList fs) ↔ ∃ f ∈ fs, evF W ρ f := by
  induction fs with
  | nil => simp [Fmls.ofList, evAny]
  | cons t ts ih => simp [Fmls.ofList, evAny, ih]

theorem noRed_ofListT (ts : List (Term K)) : hasRedTs (.ofList ts) = false ↔ ∀ t ∈ ts, hasRedT t = false := by
  induction ts with
  | nil => simp [Terms.ofList, hasRedTs]
  | cons t ts ih => simp [Terms.ofList, hasRedTs, ih]

theorem noRed_ofListF (fs : List (Fml K)) : hasRedFs (.ofList fs) = false ↔ ∀ f ∈ fs, hasRedF f = false := by
  induction fs with
  | nil => simp [Fmls.ofList, hasRedFs]
  | cons t ts ih => simp [Fmls.ofList, hasRedFs, ih]

theorem ev_boolOp_true (W : World K) (ρ : State K) (fs : List (Fml K)) : evF W ρ (boolOp true fs) ↔ ∀ f ∈ fs, evF W ρ f := by
  rcases fs with _ | ⟨f, _ | ⟨g, fs⟩⟩
  · simp [boolOp, evF, evAll_ofList]
  · simp [boolOp]
  · simp [boolOp, evF, evAll_ofList]

theorem ev_boolOp_false (W : World K) (ρ : State K) (fs : List (Fml K)) : evF W ρ (boolOp false fs) ↔ ∃ f ∈ fs, evF W ρ f := by
  rcases fs with _ | ⟨f, _ | ⟨g, fs⟩⟩
  · simp [boolOp, evF, evAny_ofList]
  · simp [boolOp]
  · simp [boolOp, evF, evAny_ofList]

theorem noRed_boolOp (b : Bool) (fs : List (Fml K)) (h : ∀ f ∈ fs, hasRedF f = false) : hasRedF (boolOp b fs) = false := by
  rcases fs with _ | ⟨f, _ | ⟨g, fs⟩⟩
  · cases b <;> simp [boolOp, hasRedF, noRed_ofListF]
  · simpa [boolOp] using h
  · cases b <;> simp only [boolOp, hasRedF, noRed_ofListF, if_true] <;> simpa [noRed_ofListF, hasRedF] using h

theorem ev_sumOp (W : World K) (ρ : State K) (ts : List (Term K)) :
    evT W ρ (sumOp ts) = sumVals (ts.map (evT W ρ)) := by
  rcases ts with _ | ⟨f, _ | ⟨g, fs⟩⟩
  · simp [sumOp, evT, evTs_ofList]
  · simp [sumOp, sumVals]
  · simp [sumOp, evT, evTs_ofList]

theorem noRed_sumOp (ts : List (Term K)) (h : ∀ f ∈ ts, hasRedT f = false) : hasRedT (sumOp ts) = false := by
  rcases ts with _ | ⟨f, _ | ⟨g, fs⟩⟩
  · simp [sumOp, hasRedT, noRed_ofListT]
  · simpa [sumOp] using h
  · simp only [sumOp, hasRedT, noRed_ofListT]; exact h

theorem lenOf_ok (W : World K) (len : Dict String Nat) (hl : LenSensed W len) (l : String) (n : Nat) (h : lenOf len l = .ok n) :
    W.len l = n := by
  unfold lenOf at h
  cases hg : Dict.get? len l with
  | none => simp [hg] at h
  | some m => simp [hg] at h; subst h; exact hl l _ hg

/-! ### Variables that do not occur -/

theorem bindTo_off {x : String} {ρ ρ' : State K} (h : ∀ k, isAttrOf x k = false → ρ k = ρ' k) (y l : String) (i : Nat) :
    ∀ k, isAttrOf x k = false → bindTo ρ y l i k = bindTo ρ' y l i k := by
  intro k hk
  cases k with
  | attr n a =>
    by_cases hy : n = y
    · simp only [bindTo, hy, if_true]; exact h _ rfl
    · simp only [bindTo, if_neg hy]; exact h _ hk
  | elem => exact h _ hk
  | name => exact h _ hk
  | tmp => exact h _ hk

theorem look_off {x : String} {ρ ρ' : State K} (h : ∀ k, isAttrOf x k = false → ρ k = ρ' k) (k : Key) (hk : isAttrOf x k = false) : look ρ k = look ρ' k := by
  cases k with
  | attr n a => exact h _ hk
  | elem => exact h _ hk
  | name => rfl
  | tmp => exact h _ hk

mutual
theorem evT_off (W : World K) (x : String) : ∀ (t : Term K) (ρ ρ' : State K), (∀ k, isAttrOf x k = false → ρ k = ρ' k) → (∀ k ∈ keysT t, isAttrOf x k = false) →
    evT W ρ t = evT W ρ' t
  | .lit v, _, _, _, _ => by simp only [evT]
  | .var k, ρ, ρ', h, hk => by simp only [evT]; exact look_off h k (hk k (by simp [keysT]))
  | .neg t, ρ, ρ', h, hk => by simp only [evT]; rw [evT_off W x t ρ ρ' h (by simpa only [keysT] using hk)]
  | .bin op s t, ρ, ρ', h, hk => by
    simp only [keysT, List.mem_append] at hk
    simp only [evT]
    rw [evT_off W x s ρ ρ' h (fun k h => hk k (.inl h)), evT_off W x t ρ ρ' h (fun k h => hk k (.inr h))]
  | .call f args, ρ, ρ', h, hk => by simp only [evT]; rw [evTs_off W x args ρ ρ' h (by simpa only [keysT] using hk)]
  | .lane q t xs, ρ, ρ', h, hk => by
    simp only [keysT, List.mem_append] at hk
    simp only [evT]
    rw [evT_off W x t ρ ρ' h (fun k h => hk k (.inl h))]
    congr 2
    exact List.map_congr_left (fun k hm => by rw [look_off h k (hk k (.inr hm))])
  | .sum y l t, ρ, ρ', h, hk => by
    simp only [evT]
    congr 1
    exact List.map_congr_left (fun i _ => evT_off W x t _ _ (bindTo_off h y l i) (by simpa only [keysT] using hk))
  | .sumList ts, ρ, ρ', h, hk => by simp only [evT]; rw [evTs_off W x ts ρ ρ' h (by simpa only [keysT] using hk)]
theorem evTs_off (W : World K) (x : String) : ∀ (t : Terms K) (ρ ρ' : State K), (∀ k, isAttrOf x k = false → ρ k = ρ' k) → (∀ k ∈ keysTs t, isAttrOf x k = false) →
    evTs W ρ t = evTs W ρ' t
  | .nil, _, _, _, _ => by simp only [evTs]
  | .cons s t, ρ, ρ', h, hk => by
    simp only [keysTs, List.mem_append] at hk
    simp only [evTs]
    rw [evT_off W x s ρ ρ' h (fun k h => hk k (.inl h)), evTs_off W x t ρ ρ' h (fun k h => hk k (.inr h))]
end

mutual
theorem evF_off (W : World K) (x : String) : ∀ (f : Fml K) (ρ ρ' : State K), (∀ k, isAttrOf x k = false → ρ k = ρ' k) → (∀ k ∈ keysF f, isAttrOf x k = false) →
    (evF W ρ f ↔ evF W ρ' f)
  | .bool b, _, _, _, _ => by simp only [evF]
  | .cmp op s t, ρ, ρ', h, hk => by
    simp only [keysF, List.mem_append] at hk
    simp only [evF]
    rw [evT_off W x s ρ ρ' h (fun k h => hk k (.inl h)), evT_off W x t ρ ρ' h (fun k h => hk k (.inr h))]
  | .and fs, ρ, ρ', h, hk => by simp only [evF]; exact (evFs_off W x fs ρ ρ' h (by simpa only [keysF] using hk)).1
  | .or fs, ρ, ρ', h, hk => by simp only [evF]; exact (evFs_off W x fs ρ ρ' h (by simpa only [keysF] using hk)).2
  | .not f, ρ, ρ', h, hk => by simp only [evF]; rw [evF_off W x f ρ ρ' h (by simpa only [keysF] using hk)]
  | .callb f args, ρ, ρ', h, hk => by simp only [evF]; rw [evTs_off W x args ρ ρ' h (by simpa only [keysF] using hk)]
  | .red true y l f, ρ, ρ', h, hk => by
    simp only [evF]
    exact forall_congr' (fun i => imp_congr_right (fun _ => evF_off W x f _ _ (bindTo_off h y l i) (by simpa only [keysF] using hk)))
  | .red false y l f, ρ, ρ', h, hk => by
    simp only [evF]
    exact exists_congr (fun i => and_congr_right (fun _ => evF_off W x f _ _ (bindTo_off h y l i) (by simpa only [keysF] using hk)))
theorem evFs_off (W : World K) (x : String) : ∀ (f : Fmls K) (ρ ρ' : State K), (∀ k, isAttrOf x k = false → ρ k = ρ' k) → (∀ k ∈ keysFs f, isAttrOf x k = false) →
    (evAll W ρ f ↔ evAll W ρ' f) ∧ (evAny W ρ f ↔ evAny W ρ' f)
  | .nil, _, _, _, _ => by simp only [evAll, evAny, and_self]
  | .cons s t, ρ, ρ', h, hk => by
    simp only [keysFs, List.mem_append] at hk
    have h1 := evF_off W x s ρ ρ' h (fun k h => hk k (.inl h))
    have h2 := evFs_off W x t ρ ρ' h (fun k h => hk k (.inr h))
    simp only [evAll, evAny]
    exact ⟨and_congr h1 h2.1, or_congr h1 h2.2⟩
end

/-- Binding a variable that does not occur changes nothing. -/
theorem bind_off {x : String} (ρ : State K) (l : String) (i : Nat) : ∀ k, isAttrOf x k = false → bindTo ρ x l i k = ρ k := by
  intro k hk
  cases k with
  | attr n a =>
    have hne : n ≠ x := by simpa [isAttrOf] using hk
    simp only [bindTo, if_neg hne]
  | elem => rfl
  | name => rfl
  | tmp => rfl

/-! ### Unrolling -/

mutual
theorem unrollT_ev (W : World K) (ρ : State K) (len : Dict String Nat) (hl : LenSensed W len) : ∀ (t u : Term K),
    unrollT len t = .ok u → evT W ρ u = evT W ρ t ∧ hasRedT u = false
  | .lit v, u, h => by simp only [unrollT] at h; cases h; simp [hasRedT]
  | .var k, u, h => by simp only [unrollT] at h; cases h; simp [hasRedT]
  | .neg t, u, h => by
    simp only [unrollT] at h
    obtain ⟨t', ht, rfl⟩ := (map_ok_iff ..).1 h
    have := unrollT_ev W ρ len hl t t' ht
    simp [evT, hasRedT, this]
  | .bin op s t, u, h => by
    simp only [unrollT] at h
    obtain ⟨s', hs, h⟩ := (bind_ok_iff ..).1 h
    obtain ⟨t', ht, h⟩ := (bind_ok_iff ..).1 h
    cases h
    have h1 := unrollT_ev W ρ len hl s s' hs
    have h2 := unrollT_ev W ρ len hl t t' ht
    simp [evT, hasRedT, h1, h2]
  | .call f args, u, h => by
    simp only [unrollT] at h
    obtain ⟨t', ht, rfl⟩ := (map_ok_iff ..).1 h
    have := unrollTs_ev W ρ len hl args t' ht
    simp [evT, hasRedT, this]
  | .lane q k xs, u, h => by
    simp only [unrollT] at h
    obtain ⟨t', ht, rfl⟩ := (map_ok_iff ..).1 h
    have := unrollT_ev W ρ len hl k t' ht
    simp [evT, hasRedT, this]
  | .sum x l t, u, h => by
    simp only [unrollT] at h
    obtain ⟨n, hn, h⟩ := (bind_ok_iff ..).1 h
    have hn := lenOf_ok W len hl l n hn
    cases hr : hasRedT t with
    | true =>
      simp only [hr, if_true] at h
      split at h
      · cases h
      · rename_i hocc
        obtain ⟨t', ht, rfl⟩ := (map_ok_iff _ _ _).1 h
        have ih := unrollT_ev W ρ len hl t t' ht
        refine ⟨?_, noRed_sumOp _ (by simpa using fun _ => ih.2)⟩
        rw [ev_sumOp, evT, hn, List.map_map]
        congr 1
        refine List.map_congr_left (fun i hi => ?_)
        have hne : n ≠ 0 := by rintro rfl; simp at hi
        have hoff : ∀ k ∈ keysT t, isAttrOf x k = false := by
          intro k hk
          by_contra hc
          exact hocc ⟨hne, List.any_eq_true.2 ⟨k, hk, by simpa using hc⟩⟩
        show evT W ρ t' = _
        rw [ih.1, evT_off W x t _ _ (bind_off ρ l i) hoff]
    | false =>
      simp only [hr] at h
      cases h
      refine ⟨?_, noRed_sumOp _ (by simpa using fun i _ => noRed_subT x l i t hr)⟩
      rw [ev_sumOp, evT, hn, List.map_map]
      congr 1
      exact List.map_congr_left (fun i _ => evT_sub W ρ x l i t hr)
  | .sumList ts, u, h => by
    simp only [unrollT] at h
    obtain ⟨t', ht, rfl⟩ := (map_ok_iff ..).1 h
    have := unrollTs_ev W ρ len hl ts t' ht
    simp [evT, hasRedT, this]
theorem unrollTs_ev (W : World K) (ρ : State K) (len : Dict String Nat) (hl : LenSensed W len) : ∀ (t u : Terms K),
    unrollTs len t = .ok u → evTs W ρ u = evTs W ρ t ∧ hasRedTs u = false
  | .nil, u, h => by simp only [unrollTs] at h; cases h; simp [hasRedTs]
  | .cons s t, u, h => by
    simp only [unrollTs] at h
    obtain ⟨s', hs, h⟩ := (bind_ok_iff ..).1 h
    obtain ⟨t', ht, h⟩ := (bind_ok_iff ..).1 h
    cases h
    have h1 := unrollT_ev W ρ len hl s s' hs
    have h2 := unrollTs_ev W ρ len hl t t' ht
    simp [evTs, hasRedTs, h1, h2]
end

mutual
theorem unrollF_ev (W : World K) (ρ : State K) (len : Dict String Nat) (hl : LenSensed W len) : ∀ (f u : Fml K),
    unrollF len f = .ok u → (evF W ρ u ↔ evF W ρ f) ∧ hasRedF u = false
  | .bool b, u, h => by simp only [unrollF] at h; cases h; simp [hasRedF]
  | .cmp op s t, u, h => by
    simp only [unrollF] at h
    obtain ⟨s', hs, h⟩ := (bind_ok_iff ..).1 h
    obtain ⟨t', ht, h⟩ := (bind_ok_iff ..).1 h
    cases h
    have h1 := unrollT_ev W ρ len hl s s' hs
    have h2 := unrollT_ev W ρ len hl t t' ht
    simp [evF, hasRedF, h1, h2]
  | .and fs, u, h => by
    simp only [unrollF] at h
    obtain ⟨t', ht, rfl⟩ := (map_ok_iff ..).1 h
    have := unrollFs_ev W ρ len hl fs t' ht
    simp [evF, hasRedF, this]
  | .or fs, u, h => by
    simp only [unrollF] at h
    obtain ⟨t', ht, rfl⟩ := (map_ok_iff ..).1 h
    have := unrollFs_ev W ρ len hl fs t' ht
    simp [evF, hasRedF, this]
  | .not f, u, h => by
    simp only [unrollF] at h
    obtain ⟨t', ht, rfl⟩ := (map_ok_iff ..).1 h
    have := unrollF_ev W ρ len hl f t' ht
    simp [evF, hasRedF, this]
  | .callb f args, u, h => by
    simp only [unrollF] at h
    obtain ⟨t', ht, rfl⟩ := (map_ok_iff ..).1 h
    have := unrollTs_ev W ρ len hl args t' ht
    simp [evF, hasRedF, this]
  | .red b x l f, u, h => by
    simp only [unrollF] at h
    obtain ⟨n, hn, h⟩ := (bind_ok_iff ..).1 h
    have hn := lenOf_ok W len hl l n hn
    cases hr : hasRedF f with
    | true =>
      simp only [hr, if_true] at h
      split at h
      · cases h
      · rename_i hocc
        obtain ⟨t', ht, rfl⟩ := (map_ok_iff _ _ _).1 h
        have ih := unrollF_ev W ρ len hl f t' ht
        refine ⟨?_, noRed_boolOp _ _ (by simpa using fun _ => ih.2)⟩
        have hoff : n ≠ 0 → ∀ k ∈ keysF f, isAttrOf x k = false := by
          intro hne k hk
          by_contra hc
          exact hocc ⟨hne, List.any_eq_true.2 ⟨k, hk, by simpa using hc⟩⟩
        have hone : ∀ i, i < n → (evF W (bindTo ρ x l i) f ↔ evF W ρ t') := by
          intro i hi
          rw [ih.1, evF_off W x f _ _ (bind_off ρ l i) (hoff (by omega))]
        cases b with
        | true =>
          rw [ev_boolOp_true, evF, hn]
          constructor
          · intro h i hi
            exact (hone i hi).2 (h t' (List.mem_map.2 ⟨i, List.mem_range.2 hi, rfl⟩))
          · intro h g hg
            obtain ⟨i, hi, rfl⟩ := List.mem_map.1 hg
            exact (hone i (List.mem_range.1 hi)).1 (h i (List.mem_range.1 hi))
        | false =>
          rw [ev_boolOp_false, evF, hn]
          constructor
          · rintro ⟨g, hg, h⟩
            obtain ⟨i, hi, rfl⟩ := List.mem_map.1 hg
            exact ⟨i, List.mem_range.1 hi, (hone i (List.mem_range.1 hi)).2 h⟩
          · rintro ⟨i, hi, h⟩
            exact ⟨t', List.mem_map.2 ⟨i, List.mem_range.2 hi, rfl⟩, (hone i hi).1 h⟩
    | false =>
      simp only [hr] at h
      cases h
      refine ⟨?_, noRed_boolOp _ _ (by simpa using fun i _ => noRed_subF x l i f hr)⟩
      cases b with
      | true =>
        rw [ev_boolOp_true, evF, hn]
        simp [evF_sub W ρ x l _ f hr]
      | false =>
        rw [ev_boolOp_false, evF, hn]
        simp [evF_sub W ρ x l _ f hr]
theorem unrollFs_ev (W : World K) (ρ : State K) (len : Dict String Nat) (hl : LenSensed W len) : ∀ (f u : Fmls K),
    unrollFs len f = .ok u → ((evAll W ρ u ↔ evAll W ρ f) ∧ (evAny W ρ u ↔ evAny W ρ f)) ∧ hasRedFs u = false
  | .nil, u, h => by simp only [unrollFs] at h; cases h; simp [hasRedFs]
  | .cons s t, u, h => by
    simp only [unrollFs] at h
    obtain ⟨s', hs, h⟩ := (bind_ok_iff ..).1 h
    obtain ⟨t', ht, h⟩ := (bind_ok_iff ..).1 h
    cases h
    have h1 := unrollF_ev W ρ len hl s s' hs
    have h2 := unrollFs_ev W ρ len hl t t' ht
    simp [evAll, evAny, hasRedFs, h1, h2]
end

end Verif.Grd
