import Verif.Proofs.Assembled2
import Verif.Proofs.Verifier1

/-! The answers of the guards and asserts of a scenario are right. -/

set_option autoImplicit false
set_option linter.unusedSectionVars false

namespace Verif.Proofs.Asm

open Verif.Asm Verif.Asm.Spec Verif.Grd Verif.Grd.Spec Verif.Sns Verif.Rect.Spec Verif.Rst.Spec
open Verif.Ver.Spec (Boxes Controlled InTube Asked HitAt ContainedAt Faithful AssertsFaithful Snap Meaning)

/-! ### Formulas about modes -/

section
variable {K : Type}

mutual
theorem unrollT_id (len : Dict String Nat) : ∀ t : Term K, hasRedT t = false → unrollT len t = .ok t
  | .lit _, _ => rfl
  | .var _, _ => rfl
  | .neg t, h => by simp only [hasRedT] at h; simp only [unrollT, unrollT_id len t h]; rfl
  | .bin _ s t, h => by
    simp only [hasRedT, Bool.or_eq_false_iff] at h
    simp only [unrollT, unrollT_id len s h.1, unrollT_id len t h.2]; rfl
  | .call _ args, h => by simp only [hasRedT] at h; simp only [unrollT, unrollTs_id len args h]; rfl
  | .lane _ k _, h => by simp only [hasRedT] at h; simp only [unrollT, unrollT_id len k h]; rfl
  | .sum _ _ _, h => by simp [hasRedT] at h
  | .sumList ts, h => by simp only [hasRedT] at h; simp only [unrollT, unrollTs_id len ts h]; rfl
theorem unrollTs_id (len : Dict String Nat) : ∀ t : Terms K, hasRedTs t = false → unrollTs len t = .ok t
  | .nil, _ => rfl
  | .cons s t, h => by
    simp only [hasRedTs, Bool.or_eq_false_iff] at h
    simp only [unrollTs, unrollT_id len s h.1, unrollTs_id len t h.2]; rfl
end

mutual
theorem unrollF_id (len : Dict String Nat) : ∀ f : Fml K, hasRedF f = false → unrollF len f = .ok f
  | .bool _, _ => rfl
  | .cmp _ s t, h => by
    simp only [hasRedF, Bool.or_eq_false_iff] at h
    simp only [unrollF, unrollT_id len s h.1, unrollT_id len t h.2]; rfl
  | .and fs, h => by simp only [hasRedF] at h; simp only [unrollF, unrollFs_id len fs h]; rfl
  | .or fs, h => by simp only [hasRedF] at h; simp only [unrollF, unrollFs_id len fs h]; rfl
  | .not f, h => by simp only [hasRedF] at h; simp only [unrollF, unrollF_id len f h]; rfl
  | .callb _ args, h => by simp only [hasRedF] at h; simp only [unrollF, unrollTs_id len args h]; rfl
  | .red _ _ _ _, h => by simp [hasRedF] at h
theorem unrollFs_id (len : Dict String Nat) : ∀ f : Fmls K, hasRedFs f = false → unrollFs len f = .ok f
  | .nil, _ => rfl
  | .cons f fs, h => by
    simp only [hasRedFs, Bool.or_eq_false_iff] at h
    simp only [unrollFs, unrollF_id len f h.1, unrollFs_id len fs h.2]; rfl
end

variable [Field K] [LinearOrder K] {Seg : Type}

theorem hybT_keys (W : World K) (ρ : State K) (M : Road K Seg) (disc : Dict Key (Grd.Val K)) : ∀ (t : Term K) (cont : Dict Key (Iv K))
    (r : Term K × Dict Key (Iv K)), asksT W ρ (fun _ _ _ => False) t → hybT M disc cont t = .ok r → r.2 = cont ∧ ∀ k ∈ keysT r.1, k ∈ keysT t
  | .lit _, cont, r, _, h => by simp only [hybT] at h; cases h; exact ⟨rfl, fun _ h => h⟩
  | .var _, cont, r, _, h => by simp only [hybT] at h; cases h; exact ⟨rfl, fun _ h => h⟩
  | .neg t, cont, r, ha, h => by
    simp only [hybT] at h
    simp only [asksT] at ha
    obtain ⟨r', h', rfl⟩ := (map_ok_iff _ _ _).1 h
    exact hybT_keys W ρ M disc t cont r' ha h'
  | .bin _ s t, cont, r, ha, h => by
    simp only [hybT] at h
    simp only [asksT] at ha
    obtain ⟨r1, h1, h⟩ := (bind_ok_iff _ _ _).1 h
    obtain ⟨r2, h2, h⟩ := (bind_ok_iff _ _ _).1 h
    cases h
    obtain ⟨a1, a2⟩ := hybT_keys W ρ M disc s cont r1 ha.1 h1
    obtain ⟨b1, b2⟩ := hybT_keys W ρ M disc t r1.2 r2 ha.2 h2
    refine ⟨b1.trans a1, fun k hk => ?_⟩
    simp only [keysT, List.mem_append] at hk ⊢
    exact hk.imp (a2 k) (b2 k)
  | .lane _ _ _, cont, r, ha, h => by simp only [asksT] at ha; exact ha.2.elim
  | .call _ _, cont, r, _, h => by simp only [hybT] at h; cases h
  | .sum _ _ _, cont, r, _, h => by simp only [hybT] at h; cases h
  | .sumList _, cont, r, _, h => by simp only [hybT] at h; cases h

mutual
theorem hybF_keys (W : World K) (ρ : State K) (M : Road K Seg) (disc : Dict Key (Grd.Val K)) : ∀ (f : Fml K) (cont : Dict Key (Iv K))
    (r : Bool × Fml K × Dict Key (Iv K)), asksF W ρ (fun _ _ _ => False) f → hybF M disc cont f = .ok r → r.2.2 = cont ∧ ∀ k ∈ keysF r.2.1, k ∈ keysF f
  | .bool _, cont, r, _, h => by simp only [hybF] at h; cases h; exact ⟨rfl, fun _ h => h⟩
  | .cmp _ s t, cont, r, ha, h => by
    simp only [hybF] at h
    simp only [asksF] at ha
    obtain ⟨r1, h1, h⟩ := (bind_ok_iff _ _ _).1 h
    obtain ⟨r2, h2, h⟩ := (bind_ok_iff _ _ _).1 h
    cases h
    obtain ⟨a1, a2⟩ := hybT_keys W ρ M disc s cont r1 ha.1 h1
    obtain ⟨b1, b2⟩ := hybT_keys W ρ M disc t r1.2 r2 ha.2 h2
    refine ⟨b1.trans a1, fun k hk => ?_⟩
    simp only [keysF, List.mem_append] at hk ⊢
    exact hk.imp (a2 k) (b2 k)
  | .and fs, cont, r, ha, h => by
    simp only [hybF] at h
    simp only [asksF] at ha
    obtain ⟨r', h', rfl⟩ := (map_ok_iff _ _ _).1 h
    exact hybAnd_keys W ρ M disc fs cont r' ha h'
  | .or fs, cont, r, ha, h => by
    simp only [hybF] at h
    simp only [asksF] at ha
    obtain ⟨r', h', rfl⟩ := (map_ok_iff _ _ _).1 h
    exact hybOr_keys W ρ M disc fs cont r' ha h'
  | .not f, cont, r, ha, h => by
    simp only [hybF] at h
    simp only [asksF] at ha
    obtain ⟨r', h', h⟩ := (bind_ok_iff _ _ _).1 h
    obtain ⟨a1, a2⟩ := hybF_keys W ρ M disc f cont r' ha h'
    cases h
    split
    · exact ⟨a1, a2⟩
    · exact ⟨a1, by simp [keysF]⟩
  | .callb _ _, cont, r, _, h => by simp only [hybF] at h; cases h
  | .red _ _ _ _, cont, r, _, h => by simp only [hybF] at h; cases h
theorem hybAnd_keys (W : World K) (ρ : State K) (M : Road K Seg) (disc : Dict Key (Grd.Val K)) : ∀ (f : Fmls K) (cont : Dict Key (Iv K))
    (r : Bool × Fmls K × Dict Key (Iv K)), asksFs W ρ (fun _ _ _ => False) f → hybAnd M disc cont f = .ok r → r.2.2 = cont ∧ ∀ k ∈ keysFs r.2.1, k ∈ keysFs f
  | .nil, cont, r, _, h => by simp only [hybAnd] at h; cases h; exact ⟨rfl, fun _ h => h⟩
  | .cons f fs, cont, r, ha, h => by
    simp only [hybAnd] at h
    simp only [asksFs] at ha
    obtain ⟨r1, h1, h⟩ := (bind_ok_iff _ _ _).1 h
    obtain ⟨a1, a2⟩ := hybF_keys W ρ M disc f cont r1 ha.1 h1
    split at h
    · obtain ⟨r2, h2, h⟩ := (bind_ok_iff _ _ _).1 h
      cases h
      obtain ⟨b1, b2⟩ := hybAnd_keys W ρ M disc fs r1.2.2 r2 ha.2 h2
      refine ⟨b1.trans a1, fun k hk => ?_⟩
      simp only [keysFs, List.mem_append] at hk ⊢
      exact hk.imp (a2 k) (b2 k)
    · cases h
      refine ⟨a1, fun k hk => ?_⟩
      simp only [keysFs, List.mem_append] at hk ⊢
      exact hk.imp (a2 k) id
theorem hybOr_keys (W : World K) (ρ : State K) (M : Road K Seg) (disc : Dict Key (Grd.Val K)) : ∀ (f : Fmls K) (cont : Dict Key (Iv K))
    (r : Bool × Fmls K × Dict Key (Iv K)), asksFs W ρ (fun _ _ _ => False) f → hybOr M disc cont f = .ok r → r.2.2 = cont ∧ ∀ k ∈ keysFs r.2.1, k ∈ keysFs f
  | .nil, cont, r, _, h => by simp only [hybOr] at h; cases h; exact ⟨rfl, fun _ h => h⟩
  | .cons f fs, cont, r, ha, h => by
    simp only [hybOr] at h
    simp only [asksFs] at ha
    obtain ⟨r1, h1, h⟩ := (bind_ok_iff _ _ _).1 h
    obtain ⟨a1, a2⟩ := hybF_keys W ρ M disc f cont r1 ha.1 h1
    obtain ⟨r2, h2, h⟩ := (bind_ok_iff _ _ _).1 h
    cases h
    obtain ⟨b1, b2⟩ := hybOr_keys W ρ M disc fs r1.2.2 r2 ha.2 h2
    refine ⟨b1.trans a1, fun k hk => ?_⟩
    simp only [keysFs, List.mem_append] at hk ⊢
    exact hk.imp (a2 k) (b2 k)
end

theorem hybList_keys (W : World K) (ρ : State K) (M : Road K Seg) (disc : Dict Key (Grd.Val K)) : ∀ (fs : List (Fml K)) (cont : Dict Key (Iv K))
    (r : Bool × List (Fml K) × Dict Key (Iv K)), (∀ f ∈ fs, asksF W ρ (fun _ _ _ => False) f) → hybList M disc cont fs = .ok r →
      r.2.2 = cont ∧ ∀ g ∈ r.2.1, ∀ k ∈ keysF g, ∃ f ∈ fs, k ∈ keysF f
  | [], cont, r, _, h => by simp only [hybList] at h; cases h; exact ⟨rfl, by simp⟩
  | f :: fs, cont, r, ha, h => by
    simp only [hybList] at h
    obtain ⟨r1, h1, h⟩ := (bind_ok_iff _ _ _).1 h
    obtain ⟨a1, a2⟩ := hybF_keys W ρ M disc f cont r1 (ha f List.mem_cons_self) h1
    obtain ⟨r2, h2, h⟩ := (bind_ok_iff _ _ _).1 h
    cases h
    obtain ⟨b1, b2⟩ := hybList_keys W ρ M disc fs r1.2.2 r2 (fun g hg => ha g (List.mem_cons_of_mem _ hg)) h2
    refine ⟨b1.trans a1, fun g hg k hk => ?_⟩
    rcases List.mem_cons.1 hg with rfl | hg
    · exact ⟨f, List.mem_cons_self, a2 k hk⟩
    · obtain ⟨f', h1, h2⟩ := b2 g hg k hk
      exact ⟨f', List.mem_cons_of_mem _ h1, h2⟩

/-- A formula without continuous variables that may be satisfied is satisfied. -/
theorem evalGuard_modes (W : World K) (M : Road K Seg) (S : Solver K) (s : Sensed K (Iv K)) (f : Fml K) (ρ : State K) (hd : HasDisc ρ s.disc)
    (hred : hasRedF f = false) (hq : asksF W ρ (fun _ _ _ => False) f)
    (hnk : ∀ k ∈ keysF f, (∃ n x, k = .attr n x) ∨ ∃ n, k = .name n) (hnc : ∀ k ∈ keysF f, Dict.get? s.cont k = none)
    (hnn : ∀ n, Dict.get? s.cont (.name n) = none) (hcor : Correct W S) (hcomp : Complete S)
    (res : Bool × Bool) (h : evalGuard W.fn M S s s f = .ok res) (hr : res.1 = true) : res = (true, true) := by
  unfold evalGuard at h
  rw [unrollF_id _ f hred] at h
  simp only [bind, Except.bind] at h
  have hadd : addElems s f = .ok s := by
    unfold addElems
    generalize keysF f = ks at hnk
    induction ks with
    | nil => rfl
    | cons k ks ih =>
      have : addElem s k = .ok s := by
        rcases hnk k List.mem_cons_self with ⟨n, x, rfl⟩ | ⟨n, rfl⟩ <;> rfl
      rw [List.foldlM_cons, this]
      exact ih (fun k hk => hnk k (List.mem_cons_of_mem _ hk))
  rw [hadd] at h
  simp only at h
  cases h3 : discList W.fn s.cont s.disc [f] with
  | error e => rw [h3] at h; cases h
  | ok r =>
    rw [h3] at h
    simp only at h
    obtain ⟨_, _, _, d4, d5⟩ := discList_ok W s.cont s.disc [f] r (by simpa using hred) h3
    have hasks := d4 ρ hd (fun _ _ _ => False) (by simpa using hq)
    cases hr1 : r.1 with
    | false => simp only [hr1] at h; cases h; cases hr
    | true =>
      simp only [hr1, if_true, check, hadd, bind, Except.bind] at h
      cases h4 : hybList M s.disc s.cont r.2 with
      | error e => rw [h4] at h; cases h
      | ok r2 =>
        rw [h4] at h
        simp only at h
        obtain ⟨c1, c2⟩ := hybList_keys W ρ M s.disc r.2 s.cont r2 hasks h4
        cases hr2 : r2.1 with
        | false => simp only [hr2] at h; cases h; cases hr
        | true =>
          simp only [hr2, if_true] at h
          rcases contList_cases S _ _ res h with ⟨b, hg, rfl⟩ | ⟨z, hg, hk, hw, ⟨hs, rfl⟩ | ⟨hs, rfl⟩⟩
          · simp only at hr; rw [hr]
          · have hkeys : ∀ k, k ∉ z.keys := by
              intro k hkz
              have h5 := hk k hkz
              obtain ⟨g, hg1, hg2⟩ := Verif.Proofs.StarGrd.genList_keys _ _ hg k hkz
              obtain ⟨f', hf1, hf2⟩ := c2 g hg1 k hg2
              rw [c1] at h5
              rcases d5 k (List.mem_flatMap.2 ⟨f', hf1, hf2⟩) with ⟨n, rfl⟩ | hm
              · rw [hnn n] at h5; cases h5
              · simp only [List.flatMap_cons, List.flatMap_nil, List.append_nil] at hm
                rw [hnc k hm] at h5; cases h5
            obtain ⟨ρ1, _, e1⟩ := (hcor z _ hw).1 hs
            have hwn : (ZFml.not z).wf = true := wf_not z hw
            have : S (.not z) (bounds r2.2.2 z) = .unsat := by
              cases ha : S (.not z) (bounds r2.2.2 z) with
              | unsat => rfl
              | unknown => exact absurd ha (hcomp _ _ hwn)
              | sat =>
                obtain ⟨ρ2, _, e2⟩ := (hcor (.not z) _ hwn).1 ha
                simp only [evZ] at e2
                exact absurd ((evZ_congr W ρ1 ρ2 z hw (fun k hk => absurd hk (hkeys k))).1 e1) e2
            simp [this]
          · cases hr

/-! ### Preparation and check -/

variable {T : Tools K Seg} {sc : Scenario K} {sig : String → Sig}

theorem prepare_some {f : Fml K} {s₀ s : Sensed K (Iv K)} {g : Ready K} {r : Bool × Bool} (hp : prepare T f (.ok s₀) = .ok (some g))
    (he : evaluate T g (.ok s) = .ok r) : evalGuard T.fn T.road T.solver s₀ s f = .ok r := by
  simp only [prepare, Except.bind] at hp
  simp only [evaluate, Except.bind] at he
  unfold evalGuard
  simp only [bind, Except.bind]
  cases hu : unrollF s₀.len f with
  | error e => rw [hu] at hp; cases hp
  | ok u =>
    rw [hu] at hp
    simp only at hp ⊢
    cases h1 : addElems s₀ u with
    | error e => rw [h1] at hp; cases hp
    | ok s₁ =>
      rw [h1] at hp
      simp only at hp ⊢
      cases h2 : discList T.fn s₁.cont s₁.disc [u] with
      | error e => rw [h2] at hp; cases hp
      | ok r' =>
        rw [h2] at hp
        simp only [Except.map, Except.ok.injEq] at hp
        simp only
        split at hp
        · rename_i hr
          cases hp
          rw [if_pos hr]
          exact he
        · cases hp

theorem prepare_none {W : World K} (hfn : W.fn = T.fn) {f : Fml K} {s₀ : Sensed K (Iv K)} {ρ : State K} (hlen : LenSensed W s₀.len) (hd : DiscSensed ρ s₀)
    (hp : prepare T f (.ok s₀) = .ok none) : ¬ evF W ρ f := by
  simp only [prepare, Except.bind] at hp
  cases hu : unrollF s₀.len f with
  | error e => rw [hu] at hp; cases hp
  | ok u =>
    rw [hu] at hp
    simp only at hp
    cases h1 : addElems s₀ u with
    | error e => rw [h1] at hp; cases hp
    | ok s₁ =>
      rw [h1] at hp
      simp only at hp
      cases h2 : discList T.fn s₁.cont s₁.disc [u] with
      | error e => rw [h2] at hp; cases hp
      | ok r' =>
        rw [h2] at hp
        simp only [Except.map, Except.ok.injEq] at hp
        split at hp
        · cases hp
        · rename_i hr
          have ev := unrollF_ev W ρ s₀.len hlen f u hu
          rw [← hfn] at h2
          obtain ⟨_, d2, _⟩ := discList_ok W s₁.cont s₁.disc [u] r' (by simpa using ev.2) h2
          have := d2 (by simpa using hr) ρ ((addElems_ok ρ s₀ s₁ u h1).2.1 hd).disc
          simp only [List.mem_singleton, exists_eq_left] at this
          exact fun he => this (ev.1.2 he)

end

end Verif.Proofs.Asm
