import Verif.Proofs.Guard2

set_option autoImplicit false
set_option linter.unusedSectionVars false

namespace Verif.Grd

open Verif.Grd.Spec

variable {K : Type} [Field K] [LinearOrder K]

/-! ### Translation for the solver -/

theorem evZAll_ofList (W : World K) (ρ : State K) (zs : List (ZFml K)) : evZAll W ρ (.ofList zs) ↔ ∀ z ∈ zs, evZ W ρ z := by
  induction zs with
  | nil => simp [ZFmls.ofList, evZAll]
  | cons z zs ih => simp [ZFmls.ofList, evZAll, ih]

theorem evZAny_ofList (W : World K) (ρ : State K) (zs : List (ZFml K)) : evZAny W ρ (.ofList zs) ↔ ∃ z ∈ zs, evZ W ρ z := by
  induction zs with
  | nil => simp [ZFmls.ofList, evZAny]
  | cons z zs ih => simp [ZFmls.ofList, evZAny, ih]

theorem ev_zAnd (W : World K) (ρ : State K) (zs : List (ZFml K)) : evZ W ρ (zAnd zs) ↔ ∀ z ∈ zs, evZ W ρ z := by
  rcases zs with _ | ⟨z, _ | ⟨z', zs⟩⟩
  · simp [zAnd, evZ, evZAll_ofList]
  · simp [zAnd]
  · simp [zAnd, evZ, evZAll_ofList]

theorem ev_zOr (W : World K) (ρ : State K) (zs : List (ZFml K)) : evZ W ρ (zOr zs) ↔ ∃ z ∈ zs, evZ W ρ z := by
  rcases zs with _ | ⟨z, _ | ⟨z', zs⟩⟩
  · simp [zOr, evZ, evZAny_ofList]
  · simp [zOr]
  · simp [zOr, evZ, evZAny_ofList]

theorem ev_text (W : World K) (ρ : State K) (r : ZRes K) : evZ W ρ r.text ↔ evRes W ρ r := by
  cases r <;> simp [ZRes.text, evRes, evZ]

/-- Truth of a conjunction of strings; `none` is false. -/
def evConj (W : World K) (ρ : State K) : Option (List (ZFml K)) → Prop
  | none => False
  | some zs => ∀ z ∈ zs, evZ W ρ z

/-- Truth of a disjunction of strings; `none` is true. -/
def evDisj (W : World K) (ρ : State K) : Option (List (ZFml K)) → Prop
  | none => True
  | some zs => ∃ z ∈ zs, evZ W ρ z

mutual
theorem genF_ok (W : World K) (ρ : State K) : ∀ (f : Fml K) (r : ZRes K), genF f = .ok r → (evRes W ρ r ↔ evF W ρ f)
  | .bool b, r, h => by simp only [genF] at h; cases h; simp [evRes, evF]
  | .cmp op s t, r, h => by simp only [genF] at h; cases h; simp [evRes, evF, evZ]
  | .and fs, r, h => by
    simp only [genF] at h
    obtain ⟨r', h', rfl⟩ := (map_ok_iff ..).1 h
    have := genAnd_ok W ρ fs r' h'
    cases r' with
    | none => simpa [evRes, evF, evConj] using this
    | some zs => simpa [evRes, evF, evConj, ev_zAnd] using this
  | .or fs, r, h => by
    simp only [genF] at h
    obtain ⟨r', h', rfl⟩ := (map_ok_iff ..).1 h
    have := genOr_ok W ρ fs r' h'
    cases r' with
    | none => simpa [evRes, evF, evDisj] using this
    | some zs => simpa [evRes, evF, evDisj, ev_zOr] using this
  | .not f, r, h => by
    simp only [genF] at h
    obtain ⟨r', h', rfl⟩ := (map_ok_iff ..).1 h
    have := genF_ok W ρ f r' h'
    have e : evRes W ρ (.inr (.not r'.text)) = ¬ evZ W ρ r'.text := by simp [evRes, evZ]
    rw [e, ev_text, this]; simp [evF]
  | .callb f args, r, h => by simp [genF] at h
  | .red b x l f, r, h => by simp [genF] at h
theorem genAnd_ok (W : World K) (ρ : State K) : ∀ (f : Fmls K) (r : Option (List (ZFml K))), genAnd f = .ok r →
    (evConj W ρ r ↔ evAll W ρ f)
  | .nil, r, h => by simp only [genAnd] at h; cases h; simp [evConj, evAll]
  | .cons f fs, r, h => by
    simp only [genAnd] at h
    obtain ⟨r1, h1, h⟩ := (bind_ok_iff ..).1 h
    have ih1 := genF_ok W ρ f r1 h1
    rcases r1 with (_ | _) | z
    · cases h
      simp only [evRes] at ih1
      simp [evConj, evAll, ← ih1]
    · have ih2 := genAnd_ok W ρ fs r h
      simp only [evRes] at ih1
      simp [evAll, ← ih1, ih2]
    · simp only at h
      obtain ⟨r2, h2, h⟩ := (bind_ok_iff ..).1 h
      have ih2 := genAnd_ok W ρ fs r2 h2
      cases h
      simp only [evRes] at ih1
      cases r2 <;> simp only [evConj, Option.map_none, Option.map_some] at ih2 ⊢ <;> simp [evAll, ← ih1, ← ih2]
theorem genOr_ok (W : World K) (ρ : State K) : ∀ (f : Fmls K) (r : Option (List (ZFml K))), genOr f = .ok r →
    (evDisj W ρ r ↔ evAny W ρ f)
  | .nil, r, h => by simp only [genOr] at h; cases h; simp [evDisj, evAny]
  | .cons f fs, r, h => by
    simp only [genOr] at h
    obtain ⟨r1, h1, h⟩ := (bind_ok_iff ..).1 h
    have ih1 := genF_ok W ρ f r1 h1
    rcases r1 with (_ | _) | z
    · have ih2 := genOr_ok W ρ fs r h
      simp only [evRes] at ih1
      simp [evAny, ← ih1, ih2]
    · cases h
      simp only [evRes] at ih1
      simp [evDisj, evAny, ← ih1]
    · simp only at h
      obtain ⟨r2, h2, h⟩ := (bind_ok_iff ..).1 h
      have ih2 := genOr_ok W ρ fs r2 h2
      cases h
      simp only [evRes] at ih1
      cases r2 <;> simp only [evDisj, Option.map_none, Option.map_some] at ih2 ⊢ <;> simp [evAny, ← ih1, ← ih2]
end

theorem genLoop_ok (W : World K) (ρ : State K) (fs : List (Fml K)) (r : Option (List (ZFml K))) (h : genLoop fs = .ok r) :
    evConj W ρ r ↔ ∀ f ∈ fs, evF W ρ f := by
  induction fs generalizing r with
  | nil => simp only [genLoop] at h; cases h; simp [evConj]
  | cons f fs ih =>
    simp only [genLoop] at h
    obtain ⟨r1, h1, h⟩ := (bind_ok_iff ..).1 h
    have ih1 := genF_ok W ρ f r1 h1
    rcases r1 with (_ | _) | z
    · cases h
      simp only [evRes] at ih1
      simp [evConj, ← ih1]
    · have ih2 := ih r h
      simp only [evRes] at ih1
      simp [← ih1, ih2]
    · simp only at h
      obtain ⟨r2, h2, h⟩ := (bind_ok_iff ..).1 h
      have ih2 := ih r2 h2
      cases h
      simp only [evRes] at ih1
      cases r2 <;> simp only [evConj, Option.map_none, Option.map_some] at ih2 ⊢ <;> simp [← ih1, ← ih2]

theorem genList_ok (W : World K) (ρ : State K) (fs : List (Fml K)) (r : ZRes K) (h : genList fs = .ok r) :
    evRes W ρ r ↔ ∀ f ∈ fs, evF W ρ f := by
  unfold genList at h
  obtain ⟨r', h', rfl⟩ := (map_ok_iff ..).1 h
  rw [← genLoop_ok W ρ fs r' h']
  rcases r' with _ | _ | ⟨z, zs⟩
  · simp [evRes, evConj]
  · simp [evRes, evConj]
  · simp only [evRes, evConj, ev_zAnd]

/-! ### The solver -/

theorem inBox_bounds (ρ : State K) (cont : Dict Key (Iv K)) (h : InBox ρ cont) (z : ZFml K) :
    ∀ b ∈ bounds cont z, Within ρ b.1 b.2 := by
  intro b hb
  simp only [bounds, List.mem_filterMap, Option.map_eq_some_iff] at hb
  obtain ⟨k, _, iv, hg, rfl⟩ := hb
  exact h k iv hg

/-- The inversion of `evaluate_guard_cont`. -/
theorem contList_cases (S : Solver K) (cont : Dict Key (Iv K)) (fs : List (Fml K)) (r : Bool × Bool)
    (h : contList S cont fs = .ok r) :
    (∃ b, genList fs = .ok (.inl b) ∧ r = (b, b)) ∨
    ∃ z, genList fs = .ok (.inr z) ∧ (∀ k ∈ z.keys, (Dict.get? cont k).isSome = true) ∧ z.wf = true ∧
      ((S z (bounds cont z) = .sat ∧ r = (true, decide (S (.not z) (bounds cont z) = .unsat))) ∨
        (S z (bounds cont z) ≠ .sat ∧ r = (false, false))) := by
  unfold contList at h
  obtain ⟨g, hg, h⟩ := (bind_ok_iff ..).1 h
  rcases g with b | z
  · simp only at h
    cases h
    exact .inl ⟨b, hg, rfl⟩
  · right
    simp only at h
    split at h
    · cases h
    · rename_i hk
      split at h
      · cases h
      · rename_i hw
        refine ⟨z, hg, by simpa [Option.isSome_iff_ne_none] using hk, by simpa using hw, ?_⟩
        split at h
        · rename_i hs
          cases h
          exact .inl ⟨hs, rfl⟩
        · rename_i hs
          cases h
          exact .inr ⟨hs, rfl⟩

theorem wf_not (z : ZFml K) (h : z.wf = true) : (ZFml.not z).wf = true := by simpa [ZFml.wf] using h

/-- No hit, complete solver: the guard is false in every state of the box. -/
theorem contList_miss (W : World K) (S : Solver K) (hc : Correct W S) (hcomp : Complete S) (cont : Dict Key (Iv K))
    (fs : List (Fml K)) (r : Bool × Bool) (h : contList S cont fs = .ok r) (hr : r.1 = false) (ρ : State K) (hρ : InBox ρ cont) :
    ¬ ∀ f ∈ fs, evF W ρ f := by
  rcases contList_cases S cont fs r h with ⟨b, hg, rfl⟩ | ⟨z, hg, _, hw, ⟨_, rfl⟩ | ⟨hs, rfl⟩⟩
  · rw [← genList_ok W ρ fs _ hg]
    simp only at hr
    simp [evRes, hr]
  · simp at hr
  · rw [← genList_ok W ρ fs _ hg]
    have : S z (bounds cont z) = .unsat := by
      have := hcomp z (bounds cont z) hw
      cases h : S z (bounds cont z) <;> simp_all
    exact (hc z _ hw).2 this ρ (inBox_bounds ρ cont hρ z)

/-- Contained: the guard holds in every state of the box. -/
theorem contList_contained (W : World K) (S : Solver K) (hc : Correct W S) (cont : Dict Key (Iv K))
    (fs : List (Fml K)) (r : Bool × Bool) (h : contList S cont fs = .ok r) (hr : r.2 = true) (ρ : State K) (hρ : InBox ρ cont) :
    ∀ f ∈ fs, evF W ρ f := by
  rcases contList_cases S cont fs r h with ⟨b, hg, rfl⟩ | ⟨z, hg, _, hw, ⟨_, rfl⟩ | ⟨hs, rfl⟩⟩
  · rw [← genList_ok W ρ fs _ hg]
    simp only at hr
    simp [evRes, hr]
  · rw [← genList_ok W ρ fs _ hg]
    simp only [decide_eq_true_eq] at hr
    have := (hc (.not z) _ (wf_not z hw)).2 hr ρ (inBox_bounds ρ cont hρ z)
    simpa [evZ, evRes] using this
  · simp at hr

/-! ### Solver formulas depend only on their variables -/

theorem arith_noRed : ∀ t : Term K, arith t = true → hasRedT t = false
  | .lit v, _ => by simp [hasRedT]
  | .var k, _ => by simp [hasRedT]
  | .neg t, h => by simpa [hasRedT] using arith_noRed t (by simpa [arith] using h)
  | .bin op s t, h => by
    cases op with
    | div =>
      simp only [arith, Bool.and_eq_true] at h
      have ht : hasRedT t = false := by
        cases t <;> simp [hasRedT] <;> simp at h
      simp [hasRedT, arith_noRed s h.1, ht]
    | _ =>
      simp only [arith, Bool.and_eq_true] at h
      simp [hasRedT, arith_noRed s h.1, arith_noRed t h.2]
  | .call _ _, h => by simp [arith] at h
  | .lane _ _ _, h => by simp [arith] at h
  | .sum _ _ _, h => by simp [arith] at h
  | .sumList _, h => by simp [arith] at h

mutual
theorem evZ_congr (W : World K) (ρ σ : State K) : ∀ z : ZFml K, z.wf = true → (∀ k ∈ z.keys, look ρ k = look σ k) →
    (evZ W ρ z ↔ evZ W σ z)
  | .const b, _, _ => by simp [evZ]
  | .cmp op s t, hw, h => by
    simp only [ZFml.wf, Bool.and_eq_true] at hw
    simp only [ZFml.keys, List.mem_append] at h
    simp only [evZ]
    rw [evT_congr W ρ σ s (arith_noRed s hw.1) (fun k hk => h k (.inl hk)),
      evT_congr W ρ σ t (arith_noRed t hw.2) (fun k hk => h k (.inr hk))]
  | .and fs, hw, h => by
    simp only [evZ]; exact evZAll_congr W ρ σ fs (by simpa [ZFml.wf] using hw) (by simpa [ZFml.keys] using h)
  | .or fs, hw, h => by
    simp only [evZ]; exact evZAny_congr W ρ σ fs (by simpa [ZFml.wf] using hw) (by simpa [ZFml.keys] using h)
  | .not f, hw, h => by
    simp only [evZ]; rw [evZ_congr W ρ σ f (by simpa [ZFml.wf] using hw) (by simpa [ZFml.keys] using h)]
theorem evZAll_congr (W : World K) (ρ σ : State K) : ∀ z : ZFmls K, z.wf = true → (∀ k ∈ z.keys, look ρ k = look σ k) →
    (evZAll W ρ z ↔ evZAll W σ z)
  | .nil, _, _ => by simp [evZAll]
  | .cons z zs, hw, h => by
    simp only [ZFmls.wf, Bool.and_eq_true] at hw
    simp only [ZFmls.keys, List.mem_append] at h
    simp only [evZAll]
    rw [evZ_congr W ρ σ z hw.1 (fun k hk => h k (.inl hk)), evZAll_congr W ρ σ zs hw.2 (fun k hk => h k (.inr hk))]
theorem evZAny_congr (W : World K) (ρ σ : State K) : ∀ z : ZFmls K, z.wf = true → (∀ k ∈ z.keys, look ρ k = look σ k) →
    (evZAny W ρ z ↔ evZAny W σ z)
  | .nil, _, _ => by simp [evZAny]
  | .cons z zs, hw, h => by
    simp only [ZFmls.wf, Bool.and_eq_true] at hw
    simp only [ZFmls.keys, List.mem_append] at h
    simp only [evZAny]
    rw [evZ_congr W ρ σ z hw.1 (fun k hk => h k (.inl hk)), evZAny_congr W ρ σ zs hw.2 (fun k hk => h k (.inr hk))]
end

/-- A non-empty box: it has only proper variables, and no empty interval. -/
structure ProperBox (cont : Dict Key (Iv K)) : Prop where
  names : ∀ s, Dict.get? cont (.name s) = none
  nonempty : ∀ k iv, Dict.get? cont k = some iv → iv.1 ≤ iv.2

/-- Change a state to put it into the box, except for some variables. -/
def moveInto (ρ : State K) (cont : Dict Key (Iv K)) (ks : List Key) : State K := fun k =>
  if k ∈ ks then ρ k else match Dict.get? cont k with
    | some iv => .num iv.1
    | none => ρ k

theorem moveInto_inBox (ρ : State K) (cont : Dict Key (Iv K)) (hp : ProperBox cont) (ks : List Key)
    (h : ∀ k ∈ ks, ∀ iv, Dict.get? cont k = some iv → Within ρ k iv) : InBox (moveInto ρ cont ks) cont := by
  intro k iv hg
  by_cases hk : k ∈ ks
  · obtain ⟨r, h1, h2⟩ := h k hk iv hg
    refine ⟨r, ?_, h2⟩
    cases k with
    | name s => rw [hp.names s] at hg; cases hg
    | _ => simpa [look, moveInto, hk] using h1
  · refine ⟨iv.1, ?_, le_refl _, hp.nonempty k iv hg⟩
    cases k with
    | name s => rw [hp.names s] at hg; cases hg
    | _ => simp [look, moveInto, hk, hg]

theorem moveInto_look (ρ : State K) (cont : Dict Key (Iv K)) (ks : List Key) (k : Key) (hk : k ∈ ks) :
    look (moveInto ρ cont ks) k = look ρ k := by
  cases k <;> simp [look, moveInto, hk]

theorem sat_state (W : World K) (S : Solver K) (hc : Correct W S) (cont : Dict Key (Iv K)) (hp : ProperBox cont) (z : ZFml K)
    (hw : z.wf = true) (hs : S z (bounds cont z) = .sat) : ∃ ρ : State K, InBox ρ cont ∧ evZ W ρ z := by
  obtain ⟨ρ, hb, hz⟩ := (hc z _ hw).1 hs
  refine ⟨moveInto ρ cont z.keys, moveInto_inBox ρ cont hp _ (fun k hk iv hg => ?_), ?_⟩
  · refine hb (k, iv) ?_
    simp only [bounds, List.mem_filterMap, Option.map_eq_some_iff]
    exact ⟨k, hk, iv, hg, rfl⟩
  · exact (evZ_congr W _ _ z hw (fun k hk => moveInto_look ρ cont _ k hk)).2 hz

theorem box_state (cont : Dict Key (Iv K)) (hp : ProperBox cont) : ∃ ρ : State K, InBox ρ cont :=
  ⟨_, moveInto_inBox (fun _ => .bool true) cont hp [] (by simp)⟩

/-! ### Hybrid evaluation -/

/-- Not a temporary variable. -/
def Plain : Key → Prop
  | .tmp _ => False
  | _ => True

/-- All temporary variables have a number up to `n`. -/
def TmpLe (n : Nat) (ks : List Key) : Prop := ∀ i, Key.tmp i ∈ ks → i ≤ n

/-- The dictionary and the state after some temporary variables were added. -/
structure HInv (cont₀ : Dict Key (Iv K)) (ρ₀ : State K) (cont : Dict Key (Iv K)) (ρ : State K) : Prop where
  get : ∀ k, Plain k → Dict.get? cont k = Dict.get? cont₀ k
  state : ∀ k, Plain k → ρ k = ρ₀ k
  box : InBox ρ cont
  le : TmpLe cont.length (cont.map Prod.fst)

/-- The states agree on all but temporary variables after the `n`-th. -/
def SameUpTo (n : Nat) (ρ ρ' : State K) : Prop := ∀ k, (∀ i, k = .tmp i → i ≤ n) → ρ' k = ρ k

theorem SameUpTo.look {n : Nat} {ρ ρ' : State K} (h : SameUpTo n ρ ρ') (k : Key) (hk : ∀ i, k = .tmp i → i ≤ n) :
    look ρ' k = look ρ k := by
  cases k <;> simp only [Spec.look] <;> exact h _ hk

theorem SameUpTo.trans {n m : Nat} {ρ ρ' ρ'' : State K} (hnm : n ≤ m) (h : SameUpTo n ρ ρ') (h' : SameUpTo m ρ' ρ'') :
    SameUpTo n ρ ρ'' := fun k hk => by rw [h' k (fun i e => (hk i e).trans hnm), h k hk]

theorem HInv.look {cont₀ : Dict Key (Iv K)} {ρ₀ : State K} {cont : Dict Key (Iv K)} {ρ : State K} (h : HInv cont₀ ρ₀ cont ρ)
    (k : Key) (hk : Plain k) : look ρ k = look ρ₀ k := by
  cases k <;> simp only [Spec.look] <;> exact h.state _ hk

theorem corners_congr {c c' : Dict Key (Iv K)} (xs : List Key) (h : ∀ k ∈ xs, Dict.get? c k = Dict.get? c' k) :
    corners c xs = corners c' xs := by
  induction xs with
  | nil => simp [corners]
  | cons k ks ih =>
    simp only [corners]
    rw [h k (by simp), ih (fun k hk => h k (by simp [hk]))]

/-- What a query must satisfy: its value lies in the interval computed from the box, and physical lanes are their own. -/
def QueryOk {Seg : Type} (M : Road K Seg) (cont₀ : Dict Key (Iv K)) (ρ₀ : State K) (q : Query) (s : String) (xs : List Key) : Prop :=
  M.phys (M.phys s) = M.phys s ∧ ∀ lo hi, corners cont₀ xs = .ok (lo, hi) →
    (laneInterval M q s lo hi).1 ≤ M.dist q s (xs.map (fun k => toNum (look ρ₀ k))) ∧
    M.dist q s (xs.map (fun k => toNum (look ρ₀ k))) ≤ (laneInterval M q s lo hi).2

/-- What the hybrid evaluation of a term guarantees. -/
structure HybT (W : World K) (cont₀ : Dict Key (Iv K)) (ρ₀ : State K) (cont : Dict Key (Iv K)) (ρ : State K) (t : Term K)
    (r : Term K × Dict Key (Iv K)) : Prop where
  mono : cont.length ≤ r.2.length
  le : TmpLe r.2.length (keysT r.1)
  noRed : hasRedT r.1 = false
  ex : ∃ ρ', HInv cont₀ ρ₀ r.2 ρ' ∧ SameUpTo cont.length ρ ρ' ∧ evT W ρ' r.1 = evT W ρ₀ t

theorem length_set_new {c : Dict Key (Iv K)} {k : Key} (v : Iv K) (h : k ∉ c.map Prod.fst) : (Dict.set c k v).length = c.length + 1 := by
  have := congrArg List.length (Dict.keys_set c k v)
  simpa [h] using this

theorem laneName_ok {Seg : Type} (W : World K) (M : Road K Seg) (disc : Dict Key (Val K)) (ρ : State K) (hd : HasDisc ρ disc) (l : Term K)
    (s : String) (h : laneName M disc l = .ok s) : toStr (evT W ρ l) = s ∨ M.phys (toStr (evT W ρ l)) = s := by
  cases l with
  | var k =>
    simp only [laneName] at h
    cases hg : Dict.get? disc k with
    | none =>
      cases k <;> simp [hg] at h
      right; simpa [evT, look, toStr] using h
    | some v =>
      cases v <;> simp [hg] at h
      left; simp only [evT]; rw [hd k _ hg]; simpa [toStr] using h
  | _ => simp [laneName] at h

theorem hybT_ok {Seg : Type} (W : World K) (M : Road K Seg) (hW : W.dist = M.dist)
    (disc : Dict Key (Val K)) (cont₀ : Dict Key (Iv K)) (ρ₀ : State K) (hd : HasDisc ρ₀ disc) : ∀ (t : Term K) (cont : Dict Key (Iv K))
    (ρ : State K) (r : Term K × Dict Key (Iv K)), (∀ k ∈ keysT t, Plain k) → asksT W ρ₀ (QueryOk M cont₀ ρ₀) t → HInv cont₀ ρ₀ cont ρ →
    hybT M disc cont t = .ok r → HybT W cont₀ ρ₀ cont ρ t r
  | .lit v, cont, ρ, r, hk, ha, hi, h => by
    simp only [hybT] at h; cases h
    exact ⟨le_refl _, by simp [keysT, TmpLe], by simp [hasRedT], ρ, hi, fun _ _ => rfl, by simp [evT]⟩
  | .var k, cont, ρ, r, hk, ha, hi, h => by
    simp only [hybT] at h; cases h
    have hp : Plain k := hk k (by simp [keysT])
    refine ⟨le_refl _, ?_, by simp [hasRedT], ρ, hi, fun _ _ => rfl, by simp [evT, hi.look k hp]⟩
    intro i hm
    simp only [keysT, List.mem_singleton] at hm
    rw [← hm] at hp
    exact absurd hp (by simp [Plain])
  | .neg t, cont, ρ, r, hk, ha, hi, h => by
    simp only [hybT] at h
    obtain ⟨r', h', rfl⟩ := (map_ok_iff ..).1 h
    obtain ⟨a, b, c, ρ', d, e, f⟩ := hybT_ok W M hW disc cont₀ ρ₀ hd t cont ρ r' (by simpa [keysT] using hk)
      (by simpa [asksT] using ha) hi h'
    exact ⟨a, by simpa [keysT] using b, by simpa [hasRedT] using c, ρ', d, e, by simp [evT, f]⟩
  | .bin op s t, cont, ρ, r, hk, ha, hi, h => by
    simp only [keysT, List.mem_append] at hk
    simp only [asksT] at ha
    simp only [hybT] at h
    obtain ⟨r1, h1, h⟩ := (bind_ok_iff ..).1 h
    obtain ⟨r2, h2, h⟩ := (bind_ok_iff ..).1 h
    cases h
    obtain ⟨a1, b1, c1, ρ1, d1, e1, f1⟩ := hybT_ok W M hW disc cont₀ ρ₀ hd s cont ρ r1 (fun k h => hk k (.inl h)) ha.1 hi h1
    obtain ⟨a2, b2, c2, ρ2, d2, e2, f2⟩ := hybT_ok W M hW disc cont₀ ρ₀ hd t r1.2 ρ1 r2 (fun k h => hk k (.inr h)) ha.2 d1 h2
    refine ⟨a1.trans a2, ?_, by simp [hasRedT, c1, c2], ρ2, d2, e1.trans a1 e2, ?_⟩
    · intro i hm
      simp only [keysT, List.mem_append] at hm
      exact hm.elim (fun h => (b1 i h).trans a2) (b2 i)
    · have : evT W ρ2 r1.1 = evT W ρ1 r1.1 := evT_congr W ρ2 ρ1 r1.1 c1 (fun k hk => e2.look k (fun i e => b1 i (e ▸ hk)))
      simp [evT, this, f1, f2]
  | .lane q l xs, cont, ρ, r, hk, ha, hi, h => by
    simp only [keysT, List.mem_append] at hk
    simp only [asksT] at ha
    simp only [hybT] at h
    obtain ⟨s, hs, h⟩ := (bind_ok_iff ..).1 h
    obtain ⟨⟨lo, up⟩, hc, h⟩ := (bind_ok_iff ..).1 h
    cases h
    have hnew : Key.tmp (cont.length + 1) ∉ cont.map Prod.fst := fun hm => by
      have := hi.le _ hm; omega
    have hlen := length_set_new (c := cont) (laneInterval M q s lo up) hnew
    have hq := ha.2.2 lo up (by rw [← hc]; exact (corners_congr xs (fun k hx => hi.get k (hk k (.inr hx)))).symm)
    have hint : laneInterval M q (toStr (evT W ρ₀ l)) lo up = laneInterval M q s lo up := by
      rcases laneName_ok W M disc ρ₀ hd l s hs with e | e
      · rw [e]
      · subst e; simp only [laneInterval, ha.2.1]
    rw [hint] at hq
    let d := M.dist q (toStr (evT W ρ₀ l)) (xs.map (fun k => toNum (look ρ₀ k)))
    let ρ' : State K := fun k => if k = .tmp (cont.length + 1) then .num d else ρ k
    have hne : ∀ k, Plain k → k ≠ .tmp (cont.length + 1) := fun k hp e => by subst e; exact hp
    refine ⟨by simp only; omega, ?_, by simp [hasRedT], ρ', ⟨?_, ?_, ?_, ?_⟩, ?_, ?_⟩
    · intro i hm
      simp only [keysT, List.mem_singleton, Key.tmp.injEq] at hm
      simp only
      omega
    · intro k hp
      simp only
      rw [Dict.get?_set_ne _ _ _ _ (hne k hp).symm]
      exact hi.get k hp
    · intro k hp
      simp only [ρ', hne k hp, if_false]
      exact hi.state k hp
    · intro k iv hg
      simp only at hg
      by_cases he : k = .tmp (cont.length + 1)
      · subst he
        rw [Dict.get?_set_self] at hg
        cases hg
        exact ⟨d, by simp [look, ρ'], hq⟩
      · rw [Dict.get?_set_ne _ _ _ _ (Ne.symm he)] at hg
        obtain ⟨x, hx, hb⟩ := hi.box k iv hg
        refine ⟨x, ?_, hb⟩
        cases k <;> first | (simp [look] at hx; done) | simpa [look, ρ', he] using hx
    · intro i hm
      simp only at hm ⊢
      rw [Dict.keys_set, if_neg hnew, List.mem_append] at hm
      rw [hlen]
      rcases hm with hm | hm
      · exact (hi.le i hm).trans (by omega)
      · simp only [List.mem_singleton, Key.tmp.injEq] at hm
        omega
    · intro k hk'
      have : k ≠ .tmp (cont.length + 1) := fun e => by have := hk' _ e; omega
      simp [ρ', this]
    · simp [evT, look, ρ', d, hW]
  | .call _ _, cont, ρ, r, hk, ha, hi, h => by simp [hybT] at h
  | .sum _ _ _, cont, ρ, r, hk, ha, hi, h => by simp [hybT] at h
  | .sumList _, cont, ρ, r, hk, ha, hi, h => by simp [hybT] at h

/-- What the hybrid evaluation of a formula guarantees. -/
structure HybF (W : World K) (cont₀ : Dict Key (Iv K)) (ρ₀ : State K) (cont : Dict Key (Iv K)) (ρ : State K) (f : Fml K)
    (r : Bool × Fml K × Dict Key (Iv K)) : Prop where
  mono : cont.length ≤ r.2.2.length
  le : TmpLe r.2.2.length (keysF r.2.1)
  noRed : hasRedF r.2.1 = false
  false' : r.1 = false → ¬ evF W ρ₀ f
  ex : ∃ ρ', HInv cont₀ ρ₀ r.2.2 ρ' ∧ SameUpTo cont.length ρ ρ' ∧ (evF W ρ' r.2.1 ↔ evF W ρ₀ f)

/-- The same for a list of formulas under a connective. -/
structure HybFs (ev : State K → Fmls K → Prop) (cont₀ : Dict Key (Iv K)) (ρ₀ : State K) (cont : Dict Key (Iv K)) (ρ : State K)
    (f : Fmls K) (r : Bool × Fmls K × Dict Key (Iv K)) : Prop where
  mono : cont.length ≤ r.2.2.length
  le : TmpLe r.2.2.length (keysFs r.2.1)
  noRed : hasRedFs r.2.1 = false
  false' : r.1 = false → ¬ ev ρ₀ f
  ex : ∃ ρ', HInv cont₀ ρ₀ r.2.2 ρ' ∧ SameUpTo cont.length ρ ρ' ∧ (ev ρ' r.2.1 ↔ ev ρ₀ f)

mutual
theorem hybF_ok {Seg : Type} (W : World K) (M : Road K Seg) (hW : W.dist = M.dist)
    (disc : Dict Key (Val K)) (cont₀ : Dict Key (Iv K)) (ρ₀ : State K) (hd : HasDisc ρ₀ disc) : ∀ (f : Fml K) (cont : Dict Key (Iv K))
    (ρ : State K) (r : Bool × Fml K × Dict Key (Iv K)), hasRedF f = false → (∀ k ∈ keysF f, Plain k) →
    asksF W ρ₀ (QueryOk M cont₀ ρ₀) f → HInv cont₀ ρ₀ cont ρ → hybF M disc cont f = .ok r → HybF W cont₀ ρ₀ cont ρ f r
  | .bool b, cont, ρ, r, hr, hk, ha, hi, h => by
    simp only [hybF] at h; cases h
    exact ⟨le_refl _, by simp [keysF, TmpLe], by simp [hasRedF], fun hb => by simp only at hb; simp [evF, hb], ρ, hi, fun _ _ => rfl,
      by simp [evF]⟩
  | .cmp op s t, cont, ρ, r, hr, hk, ha, hi, h => by
    simp only [keysF, List.mem_append] at hk
    simp only [asksF] at ha
    simp only [hybF] at h
    obtain ⟨r1, h1, h⟩ := (bind_ok_iff ..).1 h
    obtain ⟨r2, h2, h⟩ := (bind_ok_iff ..).1 h
    cases h
    obtain ⟨a1, b1, c1, ρ1, d1, e1, f1⟩ := hybT_ok W M hW disc cont₀ ρ₀ hd s cont ρ r1 (fun k h => hk k (.inl h)) ha.1 hi h1
    obtain ⟨a2, b2, c2, ρ2, d2, e2, f2⟩ := hybT_ok W M hW disc cont₀ ρ₀ hd t r1.2 ρ1 r2 (fun k h => hk k (.inr h)) ha.2 d1 h2
    refine ⟨a1.trans a2, ?_, by simp [hasRedF, c1, c2], by simp, ρ2, d2, e1.trans a1 e2, ?_⟩
    · intro i hm
      simp only [keysF, List.mem_append] at hm
      exact hm.elim (fun h => (b1 i h).trans a2) (b2 i)
    · have : evT W ρ2 r1.1 = evT W ρ1 r1.1 := evT_congr W ρ2 ρ1 r1.1 c1 (fun k hk => e2.look k (fun i e => b1 i (e ▸ hk)))
      simp [evF, this, f1, f2]
  | .and fs, cont, ρ, r, hr, hk, ha, hi, h => by
    simp only [hybF] at h
    obtain ⟨r', h', rfl⟩ := (map_ok_iff ..).1 h
    obtain ⟨a, b, c, n, ρ', d, e, f⟩ := hybAnd_ok W M hW disc cont₀ ρ₀ hd fs cont ρ r' (by simpa [hasRedF] using hr)
      (by simpa [keysF] using hk) (by simpa [asksF] using ha) hi h'
    exact ⟨a, by simpa [keysF] using b, by simpa [hasRedF] using c, by simpa [evF] using n, ρ', d, e, by simp [evF, f]⟩
  | .or fs, cont, ρ, r, hr, hk, ha, hi, h => by
    simp only [hybF] at h
    obtain ⟨r', h', rfl⟩ := (map_ok_iff ..).1 h
    obtain ⟨a, b, c, n, ρ', d, e, f⟩ := hybOr_ok W M hW disc cont₀ ρ₀ hd fs cont ρ r' (by simpa [hasRedF] using hr)
      (by simpa [keysF] using hk) (by simpa [asksF] using ha) hi h'
    exact ⟨a, by simpa [keysF] using b, by simpa [hasRedF] using c, by simpa [evF] using n, ρ', d, e, by simp [evF, f]⟩
  | .not f, cont, ρ, r, hr, hk, ha, hi, h => by
    simp only [hybF] at h
    obtain ⟨r', h', h⟩ := (bind_ok_iff ..).1 h
    obtain ⟨a, b, c, n, ρ', d, e, f⟩ := hybF_ok W M hW disc cont₀ ρ₀ hd f cont ρ r' (by simpa [hasRedF] using hr)
      (by simpa [keysF] using hk) (by simpa [asksF] using ha) hi h'
    cases hb : r'.1 with
    | true =>
      simp only [hb, if_true] at h
      cases h
      exact ⟨a, by simpa [keysF] using b, by simpa [hasRedF] using c, by simp, ρ', d, e, by simp [evF, f]⟩
    | false =>
      simp only [hb] at h
      cases h
      exact ⟨a, by simp [keysF, TmpLe], by simp [hasRedF], by simp, ρ', d, e, by simpa [evF] using n hb⟩
  | .callb f args, cont, ρ, r, hr, hk, ha, hi, h => by simp [hybF] at h
  | .red b x l f, cont, ρ, r, hr, hk, ha, hi, h => by simp [hybF] at h
theorem hybAnd_ok {Seg : Type} (W : World K) (M : Road K Seg) (hW : W.dist = M.dist)
    (disc : Dict Key (Val K)) (cont₀ : Dict Key (Iv K)) (ρ₀ : State K) (hd : HasDisc ρ₀ disc) : ∀ (f : Fmls K) (cont : Dict Key (Iv K))
    (ρ : State K) (r : Bool × Fmls K × Dict Key (Iv K)), hasRedFs f = false → (∀ k ∈ keysFs f, Plain k) →
    asksFs W ρ₀ (QueryOk M cont₀ ρ₀) f → HInv cont₀ ρ₀ cont ρ → hybAnd M disc cont f = .ok r →
    HybFs (evAll W) cont₀ ρ₀ cont ρ f r
  | .nil, cont, ρ, r, hr, hk, ha, hi, h => by
    simp only [hybAnd] at h; cases h
    exact ⟨le_refl _, by simp [keysFs, TmpLe], by simp [hasRedFs], by simp, ρ, hi, fun _ _ => rfl, by simp [evAll]⟩
  | .cons f fs, cont, ρ, r, hr, hk, ha, hi, h => by
    simp only [hasRedFs, Bool.or_eq_false_iff] at hr
    simp only [keysFs, List.mem_append] at hk
    simp only [asksFs] at ha
    simp only [hybAnd] at h
    obtain ⟨r1, h1, h⟩ := (bind_ok_iff ..).1 h
    obtain ⟨a1, b1, c1, n1, ρ1, d1, e1, f1⟩ := hybF_ok W M hW disc cont₀ ρ₀ hd f cont ρ r1 hr.1 (fun k h => hk k (.inl h)) ha.1 hi h1
    cases hb : r1.1 with
    | true =>
      simp only [hb, if_true] at h
      obtain ⟨r2, h2, h⟩ := (bind_ok_iff ..).1 h
      cases h
      obtain ⟨a2, b2, c2, n2, ρ2, d2, e2, f2⟩ := hybAnd_ok W M hW disc cont₀ ρ₀ hd fs r1.2.2 ρ1 r2 hr.2 (fun k h => hk k (.inr h))
        ha.2 d1 h2
      refine ⟨a1.trans a2, ?_, by simp [hasRedFs, c1, c2], ?_, ρ2, d2, e1.trans a1 e2, ?_⟩
      · intro i hm
        simp only [keysFs, List.mem_append] at hm
        exact hm.elim (fun h => (b1 i h).trans a2) (b2 i)
      · intro h
        simp only [evAll]
        exact fun hh => n2 h hh.2
      · have : evF W ρ2 r1.2.1 ↔ evF W ρ1 r1.2.1 :=
          evF_congr W ρ2 ρ1 r1.2.1 c1 (fun k hk => e2.look k (fun i e => b1 i (e ▸ hk)))
        simp [evAll, this, f1, f2]
    | false =>
      simp only [hb] at h
      cases h
      refine ⟨a1, ?_, by simp [hasRedFs, c1, hr.2], ?_, ρ1, d1, e1, ?_⟩
      · intro i hm
        simp only [keysFs, List.mem_append] at hm
        exact hm.elim (b1 i) (fun h => absurd (hk _ (.inr h)) (by simp [Plain]))
      · intro _
        simp only [evAll]
        exact fun hh => n1 hb hh.1
      · simp [evAll, f1, n1 hb]
theorem hybOr_ok {Seg : Type} (W : World K) (M : Road K Seg) (hW : W.dist = M.dist)
    (disc : Dict Key (Val K)) (cont₀ : Dict Key (Iv K)) (ρ₀ : State K) (hd : HasDisc ρ₀ disc) : ∀ (f : Fmls K) (cont : Dict Key (Iv K))
    (ρ : State K) (r : Bool × Fmls K × Dict Key (Iv K)), hasRedFs f = false → (∀ k ∈ keysFs f, Plain k) →
    asksFs W ρ₀ (QueryOk M cont₀ ρ₀) f → HInv cont₀ ρ₀ cont ρ → hybOr M disc cont f = .ok r →
    HybFs (evAny W) cont₀ ρ₀ cont ρ f r
  | .nil, cont, ρ, r, hr, hk, ha, hi, h => by
    simp only [hybOr] at h; cases h
    exact ⟨le_refl _, by simp [keysFs, TmpLe], by simp [hasRedFs], by simp [evAny], ρ, hi, fun _ _ => rfl, by simp [evAny]⟩
  | .cons f fs, cont, ρ, r, hr, hk, ha, hi, h => by
    simp only [hasRedFs, Bool.or_eq_false_iff] at hr
    simp only [keysFs, List.mem_append] at hk
    simp only [asksFs] at ha
    simp only [hybOr] at h
    obtain ⟨r1, h1, h⟩ := (bind_ok_iff ..).1 h
    obtain ⟨a1, b1, c1, n1, ρ1, d1, e1, f1⟩ := hybF_ok W M hW disc cont₀ ρ₀ hd f cont ρ r1 hr.1 (fun k h => hk k (.inl h)) ha.1 hi h1
    obtain ⟨r2, h2, h⟩ := (bind_ok_iff ..).1 h
    cases h
    obtain ⟨a2, b2, c2, n2, ρ2, d2, e2, f2⟩ := hybOr_ok W M hW disc cont₀ ρ₀ hd fs r1.2.2 ρ1 r2 hr.2 (fun k h => hk k (.inr h))
      ha.2 d1 h2
    refine ⟨a1.trans a2, ?_, by simp [hasRedFs, c1, c2], ?_, ρ2, d2, e1.trans a1 e2, ?_⟩
    · intro i hm
      simp only [keysFs, List.mem_append] at hm
      exact hm.elim (fun h => (b1 i h).trans a2) (b2 i)
    · intro h
      simp only [Bool.or_eq_false_iff] at h
      simp only [evAny]
      exact fun hh => hh.elim (n1 h.1) (n2 h.2)
    · have : evF W ρ2 r1.2.1 ↔ evF W ρ1 r1.2.1 :=
        evF_congr W ρ2 ρ1 r1.2.1 c1 (fun k hk => e2.look k (fun i e => b1 i (e ▸ hk)))
      simp [evAny, this, f1, f2]
end

theorem hybList_ok {Seg : Type} (W : World K) (M : Road K Seg) (hW : W.dist = M.dist)
    (disc : Dict Key (Val K)) (cont₀ : Dict Key (Iv K)) (ρ₀ : State K) (hd : HasDisc ρ₀ disc) (fs : List (Fml K)) (cont : Dict Key (Iv K))
    (ρ : State K) (r : Bool × List (Fml K) × Dict Key (Iv K)) (hr : ∀ f ∈ fs, hasRedF f = false) (hk : ∀ f ∈ fs, ∀ k ∈ keysF f, Plain k)
    (ha : ∀ f ∈ fs, asksF W ρ₀ (QueryOk M cont₀ ρ₀) f) (hi : HInv cont₀ ρ₀ cont ρ) (h : hybList M disc cont fs = .ok r) :
    cont.length ≤ r.2.2.length ∧ (r.1 = false → ¬ ∀ f ∈ fs, evF W ρ₀ f) ∧
    ∃ ρ', HInv cont₀ ρ₀ r.2.2 ρ' ∧ SameUpTo cont.length ρ ρ' ∧ ((∀ f ∈ r.2.1, evF W ρ' f) ↔ ∀ f ∈ fs, evF W ρ₀ f) := by
  induction fs generalizing cont ρ r with
  | nil =>
    simp only [hybList] at h; cases h
    exact ⟨le_refl _, by simp, ρ, hi, fun _ _ => rfl, by simp⟩
  | cons f fs ih =>
    simp only [hybList] at h
    obtain ⟨r1, h1, h⟩ := (bind_ok_iff ..).1 h
    obtain ⟨r2, h2, h⟩ := (bind_ok_iff ..).1 h
    cases h
    obtain ⟨a1, b1, c1, n1, ρ1, d1, e1, f1⟩ := hybF_ok W M hW disc cont₀ ρ₀ hd f cont ρ r1 (hr f (by simp)) (hk f (by simp))
      (ha f (by simp)) hi h1
    obtain ⟨a2, n2, ρ2, d2, e2, f2⟩ := ih r1.2.2 ρ1 r2 (fun f hf => hr f (by simp [hf])) (fun f hf => hk f (by simp [hf]))
      (fun f hf => ha f (by simp [hf])) d1 h2
    refine ⟨a1.trans a2, ?_, ρ2, d2, e1.trans a1 e2, ?_⟩
    · intro h hall
      simp only [List.mem_cons, forall_eq_or_imp] at hall
      simp only [Bool.and_eq_false_iff] at h
      exact h.elim (fun h => n1 h hall.1) (fun h => n2 h hall.2)
    · have : evF W ρ2 r1.2.1 ↔ evF W ρ1 r1.2.1 :=
        evF_congr W ρ2 ρ1 r1.2.1 c1 (fun k hk => e2.look k (fun i e => b1 i (e ▸ hk)))
      simp [this, f1, f2]

/-! ### Unrolled variables -/

theorem addElem_ok (ρ : State K) (s s' : Sensed K (Iv K)) (k : Key) (h : addElem s k = .ok s') :
    (InSensed ρ s → InSensed ρ s') ∧ (DiscSensed ρ s → DiscSensed ρ s') ∧
    (∀ k', (¬ ∃ l i a, k' = .elem l i a) → Dict.get? s'.cont k' = Dict.get? s.cont k') := by
  cases k with
  | elem l i a =>
    simp only [addElem] at h
    cases h1 : Dict.get? s.contL (l, a) with
    | some ivs =>
      simp only [h1] at h
      cases h2 : ivs[i]? with
      | none => simp [h2] at h
      | some iv =>
        simp only [h2] at h
        cases h
        refine ⟨fun hi => ⟨?_, hi.boxL⟩, fun hd => ⟨hd.disc, hd.discL⟩, ?_⟩
        · intro k' iv' hg
          rw [Dict.get?_set] at hg
          split at hg
          · rename_i he; subst he
            cases hg
            exact hi.boxL l a ivs i _ h1 h2
          · exact hi.box k' iv' hg
        · intro k' hk'
          exact Dict.get?_set_ne _ _ _ _ (fun e => hk' ⟨l, i, a, e.symm⟩)
    | none =>
      simp only [h1] at h
      cases h3 : Dict.get? s.discL (l, a) with
      | none => simp only [h3] at h; cases h; exact ⟨id, id, fun _ _ => rfl⟩
      | some vs =>
        simp only [h3] at h
        cases h2 : vs[i]? with
        | none => simp [h2] at h
        | some v =>
          simp only [h2] at h
          cases h
          refine ⟨fun hi => ⟨hi.box, hi.boxL⟩, fun hd => ⟨?_, hd.discL⟩, fun _ _ => rfl⟩
          intro k' v' hg
          rw [Dict.get?_set] at hg
          split at hg
          · rename_i he; subst he
            cases hg
            exact hd.discL l a vs i _ h3 h2
          · exact hd.disc k' v' hg
  | _ => simp only [addElem] at h; cases h; exact ⟨id, id, fun _ _ => rfl⟩

theorem addElems_ok (ρ : State K) (s s' : Sensed K (Iv K)) (f : Fml K) (h : addElems s f = .ok s') :
    (InSensed ρ s → InSensed ρ s') ∧ (DiscSensed ρ s → DiscSensed ρ s') ∧
    (∀ k', (¬ ∃ l i a, k' = .elem l i a) → Dict.get? s'.cont k' = Dict.get? s.cont k') := by
  unfold addElems at h
  refine foldlM_inv (P := fun s' => (InSensed ρ s → InSensed ρ s') ∧ (DiscSensed ρ s → DiscSensed ρ s') ∧
    (∀ k', (¬ ∃ l i a, k' = .elem l i a) → Dict.get? s'.cont k' = Dict.get? s.cont k')) h ⟨id, id, fun _ _ => rfl⟩ ?_
  intro s1 k s2 hm hP hk
  obtain ⟨a, b, c⟩ := addElem_ok ρ s1 s2 k hk
  exact ⟨fun h => a (hP.1 h), fun h => b (hP.2.1 h), fun k' h => by rw [c k' h, hP.2.2 k' h]⟩

end Verif.Grd
