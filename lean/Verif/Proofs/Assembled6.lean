import Verif.Proofs.Assembled5

/-!
Formulas without map queries: `MapsFit` holds.
-/

set_option autoImplicit false
set_option linter.unusedSectionVars false

namespace Verif.Proofs.Asm

open Verif.Grd Verif.Grd.Spec Verif.Asm Verif.Asm.Spec

variable {K Seg : Type}

mutual
theorem free_subT (x l : String) (i : Nat) : ∀ t : Term K, mapFreeT (subT x l i t) = mapFreeT t
  | .lit _ => rfl
  | .var _ => rfl
  | .neg t => by simp only [subT, mapFreeT, free_subT x l i t]
  | .bin _ s t => by simp only [subT, mapFreeT, free_subT x l i s, free_subT x l i t]
  | .call _ args => by simp only [subT, mapFreeT, free_subTs x l i args]
  | .lane _ _ _ => by simp only [subT, mapFreeT]
  | .sum _ _ t => by simp only [subT, mapFreeT, free_subT x l i t]
  | .sumList ts => by simp only [subT, mapFreeT, free_subTs x l i ts]
theorem free_subTs (x l : String) (i : Nat) : ∀ t : Terms K, mapFreeTs (subTs x l i t) = mapFreeTs t
  | .nil => rfl
  | .cons s t => by simp only [subTs, mapFreeTs, free_subT x l i s, free_subTs x l i t]
end

mutual
theorem free_subF (x l : String) (i : Nat) : ∀ t : Fml K, mapFreeF (subF x l i t) = mapFreeF t
  | .bool _ => rfl
  | .cmp _ s t => by simp only [subF, mapFreeF, free_subT x l i s, free_subT x l i t]
  | .and fs => by simp only [subF, mapFreeF, free_subFs x l i fs]
  | .or fs => by simp only [subF, mapFreeF, free_subFs x l i fs]
  | .not f => by simp only [subF, mapFreeF, free_subF x l i f]
  | .callb _ args => by simp only [subF, mapFreeF, free_subTs x l i args]
  | .red _ _ _ f => by simp only [subF, mapFreeF, free_subF x l i f]
theorem free_subFs (x l : String) (i : Nat) : ∀ t : Fmls K, mapFreeFs (subFs x l i t) = mapFreeFs t
  | .nil => rfl
  | .cons s t => by simp only [subFs, mapFreeFs, free_subF x l i s, free_subFs x l i t]
end

theorem freeTs_ofList (ts : List (Term K)) (h : ∀ t ∈ ts, mapFreeT t = true) : mapFreeTs (Terms.ofList ts) = true := by
  induction ts with
  | nil => rfl
  | cons t ts ih => simp [Terms.ofList, mapFreeTs, h t (by simp), ih (fun u hu => h u (by simp [hu]))]

theorem freeFs_ofList (ts : List (Fml K)) (h : ∀ t ∈ ts, mapFreeF t = true) : mapFreeFs (Fmls.ofList ts) = true := by
  induction ts with
  | nil => rfl
  | cons t ts ih => simp [Fmls.ofList, mapFreeFs, h t (by simp), ih (fun u hu => h u (by simp [hu]))]

theorem free_sumOp (ts : List (Term K)) (h : ∀ t ∈ ts, mapFreeT t = true) : mapFreeT (sumOp ts) = true := by
  have := freeTs_ofList ts h
  rcases ts with _ | ⟨t, _ | ⟨t', ts⟩⟩
  · rfl
  · exact h t (by simp)
  · exact this

theorem free_boolOp (b : Bool) (ts : List (Fml K)) (h : ∀ t ∈ ts, mapFreeF t = true) : mapFreeF (boolOp b ts) = true := by
  have := freeFs_ofList ts h
  rcases ts with _ | ⟨t, _ | ⟨t', ts⟩⟩
  · cases b <;> rfl
  · cases b <;> exact h t (by simp)
  · cases b <;> exact this

mutual
theorem free_unrollT (len : Dict String Nat) : ∀ (t u : Term K), unrollT len t = .ok u → mapFreeT t = true → mapFreeT u = true
  | .lit v, u, h, hk => by simp only [unrollT] at h; cases h; exact hk
  | .var k, u, h, hk => by simp only [unrollT] at h; cases h; exact hk
  | .neg t, u, h, hk => by
    simp only [unrollT] at h
    obtain ⟨t', ht, rfl⟩ := (map_ok_iff _ _ _).1 h
    simpa only [mapFreeT] using free_unrollT len t t' ht (by simpa only [mapFreeT] using hk)
  | .bin op s t, u, h, hk => by
    simp only [unrollT] at h
    obtain ⟨s', hs, h⟩ := (bind_ok_iff _ _ _).1 h
    obtain ⟨t', ht, h⟩ := (bind_ok_iff _ _ _).1 h
    cases h
    simp only [mapFreeT, Bool.and_eq_true] at hk ⊢
    exact ⟨free_unrollT len s s' hs hk.1, free_unrollT len t t' ht hk.2⟩
  | .call f args, u, h, hk => by
    simp only [unrollT] at h
    obtain ⟨t', ht, rfl⟩ := (map_ok_iff _ _ _).1 h
    simpa only [mapFreeT] using free_unrollTs len args t' ht (by simpa only [mapFreeT] using hk)
  | .lane q t xs, u, h, hk => by simp only [mapFreeT, Bool.false_eq_true] at hk
  | .sum x l t, u, h, hk => by
    simp only [unrollT] at h
    obtain ⟨n, _, h⟩ := (bind_ok_iff _ _ _).1 h
    split at h
    · split at h
      · cases h
      · obtain ⟨t', ht, rfl⟩ := (map_ok_iff _ _ _).1 h
        refine free_sumOp _ (fun u hu => ?_)
        obtain ⟨i, _, rfl⟩ := List.mem_map.1 hu
        exact free_unrollT len t t' ht (by simpa only [mapFreeT] using hk)
    · cases h
      refine free_sumOp _ (fun t' ht' => ?_)
      obtain ⟨i, _, rfl⟩ := List.mem_map.1 ht'
      rw [free_subT]
      simpa only [mapFreeT] using hk
  | .sumList ts, u, h, hk => by
    simp only [unrollT] at h
    obtain ⟨t', ht, rfl⟩ := (map_ok_iff _ _ _).1 h
    simpa only [mapFreeT] using free_unrollTs len ts t' ht (by simpa only [mapFreeT] using hk)
theorem free_unrollTs (len : Dict String Nat) : ∀ (t u : Terms K), unrollTs len t = .ok u → mapFreeTs t = true → mapFreeTs u = true
  | .nil, u, h, hk => by simp only [unrollTs] at h; cases h; exact hk
  | .cons s t, u, h, hk => by
    simp only [unrollTs] at h
    obtain ⟨s', hs, h⟩ := (bind_ok_iff _ _ _).1 h
    obtain ⟨t', ht, h⟩ := (bind_ok_iff _ _ _).1 h
    cases h
    simp only [mapFreeTs, Bool.and_eq_true] at hk ⊢
    exact ⟨free_unrollT len s s' hs hk.1, free_unrollTs len t t' ht hk.2⟩
end

mutual
theorem free_unrollF (len : Dict String Nat) : ∀ (t u : Fml K), unrollF len t = .ok u → mapFreeF t = true → mapFreeF u = true
  | .bool v, u, h, hk => by simp only [unrollF] at h; cases h; exact hk
  | .cmp op s t, u, h, hk => by
    simp only [unrollF] at h
    obtain ⟨s', hs, h⟩ := (bind_ok_iff _ _ _).1 h
    obtain ⟨t', ht, h⟩ := (bind_ok_iff _ _ _).1 h
    cases h
    simp only [mapFreeF, Bool.and_eq_true] at hk ⊢
    exact ⟨free_unrollT len s s' hs hk.1, free_unrollT len t t' ht hk.2⟩
  | .and fs, u, h, hk => by
    simp only [unrollF] at h
    obtain ⟨t', ht, rfl⟩ := (map_ok_iff _ _ _).1 h
    simpa only [mapFreeF] using free_unrollFs len fs t' ht (by simpa only [mapFreeF] using hk)
  | .or fs, u, h, hk => by
    simp only [unrollF] at h
    obtain ⟨t', ht, rfl⟩ := (map_ok_iff _ _ _).1 h
    simpa only [mapFreeF] using free_unrollFs len fs t' ht (by simpa only [mapFreeF] using hk)
  | .not f, u, h, hk => by
    simp only [unrollF] at h
    obtain ⟨t', ht, rfl⟩ := (map_ok_iff _ _ _).1 h
    simpa only [mapFreeF] using free_unrollF len f t' ht (by simpa only [mapFreeF] using hk)
  | .callb f args, u, h, hk => by
    simp only [unrollF] at h
    obtain ⟨t', ht, rfl⟩ := (map_ok_iff _ _ _).1 h
    simpa only [mapFreeF] using free_unrollTs len args t' ht (by simpa only [mapFreeF] using hk)
  | .red b x l t, u, h, hk => by
    simp only [unrollF] at h
    obtain ⟨n, _, h⟩ := (bind_ok_iff _ _ _).1 h
    split at h
    · split at h
      · cases h
      · obtain ⟨t', ht, rfl⟩ := (map_ok_iff _ _ _).1 h
        refine free_boolOp b _ (fun u hu => ?_)
        obtain ⟨i, _, rfl⟩ := List.mem_map.1 hu
        exact free_unrollF len t t' ht (by simpa only [mapFreeF] using hk)
    · cases h
      refine free_boolOp b _ (fun t' ht' => ?_)
      obtain ⟨i, _, rfl⟩ := List.mem_map.1 ht'
      rw [free_subF]
      simpa only [mapFreeF] using hk
theorem free_unrollFs (len : Dict String Nat) : ∀ (t u : Fmls K), unrollFs len t = .ok u → mapFreeFs t = true → mapFreeFs u = true
  | .nil, u, h, hk => by simp only [unrollFs] at h; cases h; exact hk
  | .cons s t, u, h, hk => by
    simp only [unrollFs] at h
    obtain ⟨s', hs, h⟩ := (bind_ok_iff _ _ _).1 h
    obtain ⟨t', ht, h⟩ := (bind_ok_iff _ _ _).1 h
    cases h
    simp only [mapFreeFs, Bool.and_eq_true] at hk ⊢
    exact ⟨free_unrollF len s s' hs hk.1, free_unrollFs len t t' ht hk.2⟩
end

section
variable [Field K]

mutual
theorem asksT_free (W : World K) (ρ : State K) (P : Query → String → List Key → Prop) : ∀ t : Term K, mapFreeT t = true → asksT W ρ P t
  | .lit _, _ => by simp [asksT]
  | .var _, _ => by simp [asksT]
  | .neg t, h => by simp only [asksT]; exact asksT_free W ρ P t (by simpa only [mapFreeT] using h)
  | .bin _ s t, h => by
    simp only [mapFreeT, Bool.and_eq_true] at h
    simp only [asksT]
    exact ⟨asksT_free W ρ P s h.1, asksT_free W ρ P t h.2⟩
  | .call _ args, h => by simp only [asksT]; exact asksTs_free W ρ P args (by simpa only [mapFreeT] using h)
  | .lane _ _ _, h => by simp only [mapFreeT, Bool.false_eq_true] at h
  | .sum _ _ _, _ => by simp [asksT]
  | .sumList ts, h => by simp only [asksT]; exact asksTs_free W ρ P ts (by simpa only [mapFreeT] using h)
theorem asksTs_free (W : World K) (ρ : State K) (P : Query → String → List Key → Prop) : ∀ t : Terms K, mapFreeTs t = true → asksTs W ρ P t
  | .nil, _ => by simp [asksTs]
  | .cons s t, h => by
    simp only [mapFreeTs, Bool.and_eq_true] at h
    simp only [asksTs]
    exact ⟨asksT_free W ρ P s h.1, asksTs_free W ρ P t h.2⟩
end

mutual
theorem asksF_free (W : World K) (ρ : State K) (P : Query → String → List Key → Prop) : ∀ t : Fml K, mapFreeF t = true → asksF W ρ P t
  | .bool _, _ => by simp [asksF]
  | .cmp _ s t, h => by
    simp only [mapFreeF, Bool.and_eq_true] at h
    simp only [asksF]
    exact ⟨asksT_free W ρ P s h.1, asksT_free W ρ P t h.2⟩
  | .and fs, h => by simp only [asksF]; exact asksFs_free W ρ P fs (by simpa only [mapFreeF] using h)
  | .or fs, h => by simp only [asksF]; exact asksFs_free W ρ P fs (by simpa only [mapFreeF] using h)
  | .not f, h => by simp only [asksF]; exact asksF_free W ρ P f (by simpa only [mapFreeF] using h)
  | .callb _ args, h => by simp only [asksF]; exact asksTs_free W ρ P args (by simpa only [mapFreeF] using h)
  | .red _ _ _ _, _ => by simp [asksF]
theorem asksFs_free (W : World K) (ρ : State K) (P : Query → String → List Key → Prop) : ∀ t : Fmls K, mapFreeFs t = true → asksFs W ρ P t
  | .nil, _ => by simp [asksFs]
  | .cons s t, h => by
    simp only [mapFreeFs, Bool.and_eq_true] at h
    simp only [asksFs]
    exact ⟨asksF_free W ρ P s h.1, asksFs_free W ρ P t h.2⟩
end

/-- Without map queries, there is nothing to require of the map. -/
theorem mapsFit_free [LinearOrder K] (T : Tools K Seg) (sc : Scenario K) (sig : String → Sig)
    (b : Ver.Body (Sense K) (Ready K) K (Val K) (Reads K)) (tr : Ver.Trace K)
    (h : ∀ a c, (a, c) ∈ sc.agents → ∀ f ∈ formulas c, mapFreeF f = true) : MapsFit T sc sig b tr := by
  intro i sd s a c _ _ hc f hf se u se' _ hu _
  exact asksF_free _ _ _ u (free_unrollF se.len f u hu (h a c hc f hf))

end

end Verif.Proofs.Asm
