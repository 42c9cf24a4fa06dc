import Verif.Proofs.Contains

/-! Helper lemmas for C11: what `collect_ranges` returns. -/

set_option autoImplicit false

namespace Verif.Proofs.Cont
open Verif Verif.ATree Verif.Spec

theorem Good.congr {m : List String} {cont N : Nat} {S S' : String → Nat → Nat → ℚ → Prop} {r : Ranges}
    (h : Good m cont N S r) (hS : ∀ a ∈ m, ∀ i < N, ∀ j < cont, ∀ x, S a i j x ↔ S' a i j x) : Good m cont N S' r := by
  intro a ha
  obtain ⟨l, h1, h2, h3⟩ := h a ha
  refine ⟨l, h1, h2, fun i hi => ?_⟩
  obtain ⟨row, h4, h5, h6⟩ := h3 i hi
  refine ⟨row, h4, h5, fun j hj => ?_⟩
  obtain ⟨c, h7, h8, h9⟩ := h6 j hj
  exact ⟨c, h7, fun x => (h8 x).trans (hS a ha i hi j hj x), h9⟩

theorem rowTime_last {n : CNode} {m0 : String} {rows : List (List ℚ)} {r : List ℚ} {x : ℚ} (h : Dict.get? n.trace m0 = some rows)
    (k : Nat) (hk : 0 < k) (hl : k ≤ rows.length) (h1 : rows[rows.length - k]? = some r) (h2 : r[0]? = some x) :
    rowTime n m0 (-(k : Int)) = .ok x := by
  have hz : idxZ rows (-(k : Int)) = .ok r := by
    unfold idxZ pyIdx
    rw [if_neg (by omega), if_pos (by omega)]
    have : ((rows.length : Int) + -(k : Int)).toNat = rows.length - k := by omega
    rw [this, h1]
  unfold rowTime
  rw [key_some h]
  dsimp only [bind, Except.bind]
  rw [hz]
  dsimp only
  rw [idx_some h2]

theorem collectL_ex {R : Rnd} {m : List String} {m0 : String} {cont : Nat} {P : RTree CNode → Ranges → Prop}
    (ts : List (RTree CNode)) (h : ∀ t ∈ ts, ∃ r, collect R m m0 cont t = .ok r ∧ P t r) :
    ∃ ks, collectL R m m0 cont ts = .ok ks ∧ List.Forall₂ (fun t k => k.1 = t.label.start ∧ P t k.2) ts ks := by
  induction ts with
  | nil => exact ⟨[], by rw [collectL], .nil⟩
  | cons t ts ih =>
    obtain ⟨r, h1, h2⟩ := h t (by simp)
    obtain ⟨ks, h3, h4⟩ := ih (fun u hu => h u (by simp [hu]))
    refine ⟨(t.label.start, r) :: ks, ?_, .cons ⟨rfl, h2⟩ h4⟩
    rw [collectL, h1, h3]; rfl

theorem collect_good {R : Rnd} {h T : ℚ} (hh : 0 < h) (h10 : R.r10 h = h) (hint : ∀ z : ℤ, R.int z = z) {m : List String}
    {m0 : String} (hm0 : m0 ∈ m) {cont : Nat} {t : RTree CNode} (ht : OnGrid h T m cont t) :
    ∃ r, collect R m m0 cont t = .ok r ∧ ∃ N : Nat, 0 < N ∧ t.label.start + N * h = T ∧
      Good m cont N (fun a i j x => Covers h t a i j x) r := by
  induction ht with
  | @mk n ts L hL hrows hts hstart hleaf hle ih =>
    obtain ⟨rows0, g1, g2, g3, ⟨r1, g4, g5⟩, ⟨r2, g6, g7⟩⟩ := hrows m0 hm0
    obtain ⟨cur, hc1, hc2⟩ := cur_good (m := m) (cont := cont) (L := L) (n := n)
      (fun a ha => by obtain ⟨rows, p1, p2, p3, _⟩ := hrows a ha; exact ⟨rows, p1, p2, p3⟩)
    obtain ⟨ks, hk1, hk2⟩ := collectL_ex (P := fun t r => ∃ N : Nat, 0 < N ∧ t.label.start + N * h = T ∧
      Good m cont N (fun a i j x => Covers h t a i j x) r) ts ih
    rw [collect, key_some g1]
    dsimp only [bind, Except.bind]
    rw [g2, hc1]
    dsimp only
    rw [hk1]
    dsimp only
    by_cases hts0 : ts = []
    · subst hts0
      cases hk2
      rw [if_pos (by rfl)]
      refine ⟨cur, rfl, L, hL, hleaf rfl, hc2.congr ?_⟩
      intro a ha i hi j hj x
      constructor
      · rintro ⟨rows, lo, hi', p, q, q1, q2, q3, q4⟩
        exact ⟨lo, hi', p, q, .own q1 q2 q3, q4⟩
      · rintro ⟨lo, hi', p, q, hr, q4⟩
        cases hr with
        | own q1 q2 q3 => exact ⟨_, lo, hi', p, q, q1, q2, q3, q4⟩
        | child hmem _ _ => simp at hmem
    · have hks : ks ≠ [] := by
        intro hks; subst hks; cases hk2; exact hts0 rfl
      rw [if_neg (by simpa using hks)]
      -- the common end
      obtain ⟨t0, ht0⟩ := List.exists_mem_of_ne_nil ts hts0
      obtain ⟨k0, hk0, hk0s, N0, hN0, hN0T, _⟩ := forall₂_mem_left hk2 ht0
      obtain ⟨s0, hs0, hs0e⟩ := hstart t0 ht0
      have hNT : n.start + ((s0 + N0 : ℕ) : ℚ) * h = T := by
        push_cast; rw [← hN0T, hs0e]; ring
      obtain ⟨N, hN⟩ : ∃ N : ℕ, N = s0 + N0 := ⟨_, rfl⟩
      rw [← hN] at hNT
      have hLN : L ≤ N := by
        have : (L : ℚ) * h ≤ N * h := by linarith
        exact_mod_cast le_of_mul_le_mul_right this hh
      -- every child: offset and length
      have hkid : ∀ k ∈ ks, ∃ t ∈ ts, ∃ s : ℕ, s < L ∧ t.label.start = n.start + s * h ∧ k.1 = n.start + s * h ∧ s ≤ N ∧
          Good m cont (N - s) (fun a i j x => Covers h t a i j x) k.2 := by
        intro k hk
        obtain ⟨t, ht, hks', Nk, hNk, hNkT, hg⟩ := forall₂_mem_right hk2 hk
        obtain ⟨s, hs, hse⟩ := hstart t ht
        have hsN : s + Nk = N := by
          have : ((s + Nk : ℕ) : ℚ) * h = N * h := by
            push_cast; linarith
          exact_mod_cast mul_right_cancel₀ hh.ne' this
        refine ⟨t, ht, s, hs, hse, by rw [hks', hse], by omega, ?_⟩
        have : N - s = Nk := by omega
        rw [this]; exact hg
      unfold mergeKids
      have e1 : rowTime n m0 (-1) = .ok (n.start + L * h) := by
        have := rowTime_last g1 1 (by omega) (by omega) (by rw [g2]; exact g6) g7
        simpa using this
      have e2 : rowTime n m0 (-2) = .ok (n.start + (L - 1 : ℕ) * h) := by
        have := rowTime_last g1 2 (by omega) (by omega) (by rw [g2]; exact g4) g5
        simpa using this
      have hstep : n.start + L * h - (n.start + (L - 1 : ℕ) * h) = h := by
        have : ((L - 1 : ℕ) : ℚ) = (L : ℚ) - 1 := by
          rw [Nat.cast_sub (by omega)]; simp
        rw [this]; ring
      rw [e1, e2]
      dsimp only [bind, Except.bind]
      rw [hstep, h10]
      -- the earliest child
      obtain ⟨kf, kr, hkf⟩ : ∃ kf kr, ks = kf :: kr := by
        cases ks with
        | nil => exact absurd rfl hks
        | cons a b => exact ⟨a, b, rfl⟩
      obtain ⟨mn, hmn1, hmn2, hmn3⟩ : ∃ mn, minOf (ks.map Prod.fst) = .ok mn ∧ (∀ k ∈ ks, mn ≤ k.1) ∧ ∃ k ∈ ks, k.1 = mn := by
        refine ⟨(kr.map Prod.fst).foldl min kf.1, ?_, ?_, ?_⟩
        · rw [hkf]; rfl
        · intro k hk
          rw [hkf] at hk
          apply (foldl_min_spec (kr.map Prod.fst) kf.1).1
          rcases List.mem_cons.1 hk with h | h
          · subst h; simp
          · exact List.mem_cons_of_mem _ (List.mem_map.2 ⟨k, h, rfl⟩)
        · rcases List.mem_cons.1 (foldl_min_spec (kr.map Prod.fst) kf.1).2 with h | h
          · exact ⟨kf, by simp [hkf], h.symm⟩
          · obtain ⟨k, hk, he⟩ := List.mem_map.1 h
            exact ⟨k, by simp [hkf, hk], he⟩
      obtain ⟨km, hkm, hkme⟩ := hmn3
      obtain ⟨tm, htm, sm, hsmL, hsme, hkms, hsmN, hgm⟩ := hkid km hkm
      have hmne : mn = n.start + sm * h := by rw [← hkme, hkms]
      rw [hmn1]
      dsimp only
      -- biases and lengths
      have hb : ks.mapM (fun k => divRound R (k.1 - mn) h) = .ok (ks.map (fun k => R.int ((k.1 - mn) / h))) := by
        apply mapM_map_ok
        intro k _
        rw [divRound, if_neg hh.ne']
      have hl : ks.mapM (fun k => do
          let l ← key k.2 m0
          (Except.ok l.length : Except Err Nat)) = .ok (ks.map (fun k => ((Dict.get? k.2 m0).getD []).length)) := by
        apply mapM_map_ok
        intro k hk
        obtain ⟨t, ht, s, _, _, _, _, hg⟩ := hkid k hk
        obtain ⟨l, q1, q2⟩ := hg m0 hm0
        rw [key_some q1, q1]; rfl
      dsimp only [bind, Except.bind] at hl
      rw [hb]
      dsimp only
      rw [hl]
      dsimp only
      rw [List.zip_map', List.zip_map']
      -- per child
      have hkid2 : ∀ k ∈ ks, ∃ t ∈ ts, ∃ s : ℕ, s < L ∧ sm ≤ s ∧ t.label.start = n.start + s * h ∧
          R.int ((k.1 - mn) / h) = (s : Int) - sm ∧ ((Dict.get? k.2 m0).getD []).length = N - s ∧ s ≤ N ∧
          Good m cont (N - s) (fun a i j x => Covers h t a i j x) k.2 := by
        intro k hk
        obtain ⟨t, ht, s, q1, q2, q3, q4, hg⟩ := hkid k hk
        refine ⟨t, ht, s, q1, ?_, q2, ?_, ?_, q4, hg⟩
        · have := hmn2 k hk
          rw [q3, hmne] at this
          have : (sm : ℚ) * h ≤ s * h := by linarith
          exact_mod_cast le_of_mul_le_mul_right this hh
        · rw [q3, hmne]
          have : (n.start + (s : ℚ) * h - (n.start + sm * h)) / h = (((s : Int) - sm : Int) : ℚ) := by
            push_cast; field_simp; ring
          rw [this, hint]
        · obtain ⟨l, p1, p2, _⟩ := hg m0 hm0
          rw [p1]; exact p2
      -- the combined length
      have hW : (ks.map (fun k => ((Dict.get? k.2 m0).getD []).length)).foldl max 0 = N - sm := by
        obtain ⟨w1, w2⟩ := ATree.foldl_max_spec (ks.map (fun k => ((Dict.get? k.2 m0).getD []).length)) 0
        apply le_antisymm
        · rcases List.mem_cons.1 w2 with h | h
          · omega
          · obtain ⟨k, hk, he⟩ := List.mem_map.1 h
            obtain ⟨_, _, s, _, q1, _, _, q2, _⟩ := hkid2 k hk
            omega
        · have := w1 ((Dict.get? km.2 m0).getD []).length (List.mem_cons_of_mem _ (List.mem_map.2 ⟨km, hkm, rfl⟩))
          obtain ⟨l, p1, p2, _⟩ := hgm m0 hm0
          rw [p1] at this
          simp only [Option.getD_some] at this
          omega
      rw [hW]
      have hcb := combine_good (m := m) (cont := cont) (W := N - sm)
        (kids := ks.map (fun k => (k.2, R.int ((k.1 - mn) / h), ((Dict.get? k.2 m0).getD []).length)))
        (by simpa using hks)
        (fun k a i j x => ∃ t ∈ ts, ∃ s : ℕ, sm ≤ s ∧ t.label.start = n.start + s * h ∧ k.2.1 = (s : Int) - sm ∧ k.2.2 = N - s ∧
          s ≤ N ∧ ∃ l, Dict.get? k.1 a = some l ∧ ∃ row, l[i]? = some row ∧ ∃ c, row[j]? = some c ∧ Mem x c ∧ Covers h t a i j x)
        (by
          intro k hk
          obtain ⟨k', hk', rfl⟩ := List.mem_map.1 hk
          obtain ⟨t, ht, s, q1, q2, q3, q4, q5, q6, q7⟩ := hkid2 k' hk'
          dsimp only
          intro a ha
          obtain ⟨l, p1, p2, p3⟩ := q7 a ha
          refine ⟨l, p1, by omega, ?_⟩
          intro i hi
          obtain ⟨row, p4, p5, p6⟩ := p3 i (by omega)
          refine ⟨row, p4, p5, ?_⟩
          intro j hj
          obtain ⟨c, p7, p8, p9⟩ := p6 j hj
          refine ⟨c, p7, ?_, p9⟩
          intro x
          constructor
          · intro hx
            exact ⟨t, ht, s, q2, q3, q4, q5, q6, l, p1, row, p4, c, p7, hx, (p8 x).1 hx⟩
          · rintro ⟨_, _, _, _, _, _, _, _, l', z1, row', z2, c', z3, z4, _⟩
            rw [p1] at z1; cases z1
            rw [p4] at z2; cases z2
            rw [p7] at z3; cases z3
            exact z4)
      obtain ⟨co, hco1, hco2⟩ := hcb
      rw [hco1]
      dsimp only
      have hov : divRound R (n.start + L * h - mn) h = .ok ((L - sm : ℕ) : Int) := by
        rw [divRound, if_neg hh.ne', hmne]
        have : (n.start + (L : ℚ) * h - (n.start + sm * h)) / h = (((L : Int) - sm : Int) : ℚ) := by
          push_cast; field_simp; ring
        rw [this, hint]
        congr 1
        omega
      rw [hov]
      dsimp only
      obtain ⟨r, hr1, hr2⟩ := stitch_good hc2 hco2 (v := L - sm) (by omega) (by omega) (by omega)
      refine ⟨r, hr1, N, by omega, hNT, ?_⟩
      have hlen : L - (L - sm) + (N - sm) = N := by omega
      rw [hlen] at hr2
      have hLs : L - (L - sm) = sm := by omega
      rw [hLs] at hr2
      refine hr2.congr ?_
      intro a ha i hi j hj x
      constructor
      · rintro (⟨_, rows, lo, hi', p, q, q1, q2, q3, q4⟩ | ⟨hle', k, hk, i', q1, q2, t, ht, s, q3, q4, q5, q6, q7, _, _, _, _, _, _, _, hcov⟩)
        · exact ⟨lo, hi', p, q, .own q1 q2 q3, q4⟩
        · obtain ⟨lo, hi', p, q, z1, z2⟩ := hcov
          have : i = s + i' := by omega
          rw [this]
          exact ⟨lo, hi', p, q, .child ht q4 z1, z2⟩
      · rintro ⟨lo, hi', p, q, hr, q4⟩
        cases hr with
        | own q1 q2 q3 =>
          left
          refine ⟨?_, _, lo, hi', p, q, q1, q2, q3, q4⟩
          obtain ⟨rows, w1, w2, _⟩ := hrows a ha
          rw [q1] at w1; cases w1
          have := (List.getElem?_eq_some_iff.1 q2).1
          omega
        | @child _ _ t s i' _ _ hmem q1 q2 =>
          right
          obtain ⟨k, hk, hke, Nk, hNk, hNkT, hg⟩ := forall₂_mem_left hk2 hmem
          obtain ⟨t', ht', s', r1, r2, r3, r4, r5, r6, r7⟩ := hkid2 k hk
          have hss : s = s' := by
            obtain ⟨t'', ht'', s'', u1, u2, u3, u4, u5⟩ := hkid k hk
            have h1 : (s : ℚ) * h = s'' * h := by rw [hke, q1] at u3; linarith
            have h2 : s = s'' := by exact_mod_cast mul_right_cancel₀ hh.ne' h1
            have h3 : R.int ((k.1 - mn) / h) = (s : Int) - sm := by
              rw [u3, hmne, h2]
              have : (n.start + (s'' : ℚ) * h - (n.start + sm * h)) / h = (((s'' : Int) - sm : Int) : ℚ) := by
                push_cast; field_simp; ring
              rw [this, hint]
            rw [h3] at r4
            omega
          subst hss
          have hsN : s + Nk = N := by
            have : ((s + Nk : ℕ) : ℚ) * h = N * h := by
              push_cast; linarith
            exact_mod_cast mul_right_cancel₀ hh.ne' this
          obtain ⟨l, p1, p2, p3⟩ := hg a ha
          refine ⟨by omega, _, List.mem_map.2 ⟨k, hk, rfl⟩, i', ?_, ?_, t, hmem, s, r2, q1, r4, r5, r6, l, p1, ?_⟩
          · dsimp only; omega
          · dsimp only; omega
          · obtain ⟨row, p4, p5, p6⟩ := p3 i' (by omega)
            obtain ⟨c, p7, p8, p9⟩ := p6 j hj
            exact ⟨row, p4, c, p7, (p8 x).2 ⟨lo, hi', p, q, q2, q4⟩, lo, hi', p, q, q2, q4⟩

theorem allM_true {α : Type} {f : α → Except Err Bool} {l : List α} : allM f l = .ok true ↔ ∀ a ∈ l, f a = .ok true := by
  induction l with
  | nil => simp [allM]
  | cons a l ih =>
    rw [allM]
    cases hf : f a with
    | error e => simp [bind, Except.bind, hf]
    | ok b =>
      cases b
      · simp [bind, Except.bind, hf]
      · simp [bind, Except.bind, hf, ih]

end Verif.Proofs.Cont
