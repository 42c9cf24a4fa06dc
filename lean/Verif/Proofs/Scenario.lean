import Verif.Spec.Scenario
import Verif.Proofs.Basic

/-! Lemmas on the initial conditions of a scenario. -/

set_option autoImplicit false

namespace Verif.Proofs.Scn

open Verif.Scn Verif.Scn.Spec

variable {K V : Type}

theorem grown_refl (h : Heap K) : Grown h h := ⟨List.prefix_rfl, List.prefix_rfl⟩

theorem grown_trans {a b c : Heap K} (h : Grown a b) (h' : Grown b c) : Grown a c := ⟨h.1.trans h'.1, h.2.trans h'.2⟩

theorem prefix_get {α : Type} {a b : List α} (h : a <+: b) {i : Nat} {x : α} (hi : a[i]? = some x) : b[i]? = some x := by
  obtain ⟨c, rfl⟩ := h
  rw [List.getElem?_append_left (List.getElem?_eq_some_iff.1 hi).1]; exact hi

theorem optMapM_iff {α β : Type} (f : α → Option β) (l : List α) (r : List β) :
    l.mapM f = some r ↔ List.Forall₂ (fun a b => f a = some b) l r := by
  induction l generalizing r with
  | nil => simp [eq_comm]
  | cons a l ih =>
    rw [List.mapM_cons]
    cases r with
    | nil =>
      simp only [List.forall₂_nil_right_iff, reduceCtorEq, iff_false]
      intro h
      obtain ⟨b, -, h⟩ := Option.bind_eq_some_iff.1 h
      obtain ⟨bs, -, h⟩ := Option.bind_eq_some_iff.1 h
      cases h
    | cons b r =>
      rw [List.forall₂_cons, ← ih]
      constructor
      · intro h
        obtain ⟨b', h1, h⟩ := Option.bind_eq_some_iff.1 h
        obtain ⟨bs, h2, h⟩ := Option.bind_eq_some_iff.1 h
        injection h with h; injection h with h3 h4; subst h3 h4
        exact ⟨h1, h2⟩
      · rintro ⟨h1, h2⟩
        rw [h1, h2]; rfl

theorem deref_iff {h : Heap K} {m : Nat} {v : List (List K)} :
    deref h m = some v ↔ ∃ rs, h.mats[m]? = some rs ∧ List.Forall₂ (fun r row => h.rows[r]? = some row) rs v := by
  unfold deref
  rw [Option.bind_eq_some_iff]
  constructor
  · rintro ⟨rs, h1, h2⟩; exact ⟨rs, h1, (optMapM_iff _ _ _).1 h2⟩
  · rintro ⟨rs, h1, h2⟩; exact ⟨rs, h1, (optMapM_iff _ _ _).2 h2⟩

theorem grown_deref {h h' : Heap K} (hg : Grown h h') {m : Nat} {v : List (List K)} (hd : Scn.deref h m = some v) : Scn.deref h' m = some v := by
  obtain ⟨rs, h1, h2⟩ := deref_iff.1 hd
  exact deref_iff.2 ⟨rs, prefix_get hg.2 h1, h2.imp (fun _ _ => prefix_get hg.1)⟩

theorem copyRows_spec (n0 : Nat) : ∀ (rs : List Nat) (h : List (List K)) (memo : List (Nat × Nat)) (out : List Nat) (h' : List (List K)) (o : List Nat),
    copyRows h rs memo out = .ok (h', o) → n0 ≤ h.length → (∀ r ∈ rs, r < h.length) →
    (∀ r r', Dict.get? memo r = some r' → n0 ≤ r' ∧ r' < h.length ∧ h[r']? = h[r]?) →
    h <+: h' ∧ ∃ new, o = out ++ new ∧ List.Forall₂ (fun r r' => n0 ≤ r' ∧ r' < h'.length ∧ h'[r']? = h[r]?) rs new := by
  intro rs
  induction rs with
  | nil =>
    intro h memo out h' o hrun _ _ _
    injection hrun with hrun; injection hrun with h1 h2; subst h1 h2
    exact ⟨List.prefix_rfl, [], by simp, .nil⟩
  | cons r rs ih =>
    intro h memo out h' o hrun hn hlt hm
    unfold copyRows at hrun
    cases hg : Dict.get? memo r with
    | some r' =>
      rw [hg] at hrun
      obtain ⟨hp, new, rfl, hf⟩ := ih _ _ _ _ _ hrun hn (fun x hx => hlt x (List.mem_cons_of_mem _ hx)) hm
      obtain ⟨m1, m2, m3⟩ := hm r r' hg
      refine ⟨hp, r' :: new, by simp, .cons ⟨m1, Nat.lt_of_lt_of_le m2 hp.length_le, ?_⟩ hf⟩
      rw [← m3, List.getElem?_eq_getElem m2]
      exact prefix_get hp (List.getElem?_eq_getElem m2)
    | none =>
      rw [hg] at hrun
      cases hr : h[r]? with
      | none => rw [hr] at hrun; cases hrun
      | some row =>
        rw [hr] at hrun
        dsimp only at hrun
        have hrl : r < h.length := hlt r (by simp)
        obtain ⟨hp, new, rfl, hf⟩ := ih _ _ _ _ _ hrun (by simp; omega)
          (fun x hx => by have := hlt x (List.mem_cons_of_mem _ hx); simp; omega) (by
            intro x x' hx
            have hga : Dict.get? (memo ++ [(r, h.length)]) x = (Dict.get? memo x).or (if r = x then some h.length else none) := by
              unfold Dict.get?
              rw [List.find?_append]
              cases List.find? (fun p => decide (p.1 = x)) memo with
              | some y => rfl
              | none => by_cases hrx : r = x <;> simp [hrx]
            rw [hga] at hx
            cases hgx : Dict.get? memo x with
            | some y =>
              rw [hgx] at hx
              injection hx with hx; subst hx
              obtain ⟨m1, m2, m3⟩ := hm x y hgx
              refine ⟨m1, by simp; omega, ?_⟩
              rw [List.getElem?_append_left m2, m3]
              rw [List.getElem?_eq_getElem m2] at m3
              rw [List.getElem?_append_left (List.getElem?_eq_some_iff.1 m3.symm).1]
            | none =>
              rw [hgx] at hx
              by_cases hrx : r = x
              · subst hrx
                simp only [if_true, Option.none_or] at hx
                injection hx with hx; subst hx
                refine ⟨hn, by simp, ?_⟩
                rw [List.getElem?_append_left hrl, hr]
                simp
              · simp [hrx] at hx)
        refine ⟨(List.prefix_append _ _).trans hp, h.length :: new, by simp, .cons ⟨hn, ?_, ?_⟩ ?_⟩
        · have := hp.length_le; simp at this; omega
        · rw [hr]; exact prefix_get hp (by simp)
        · have hall : ∀ x ∈ rs, x < h.length := fun x hx => hlt x (List.mem_cons_of_mem _ hx)
          clear hrun hlt ih
          induction hf with
          | nil => exact .nil
          | cons h1 _ ih2 =>
            refine .cons ⟨h1.1, h1.2.1, ?_⟩ (ih2 (fun x hx => hall x (List.mem_cons_of_mem _ hx)))
            rw [h1.2.2, List.getElem?_append_left (hall _ (by simp))]

theorem isolated_grown {h h' h1 : Heap K} {m : Nat} {v : List (List K)} (hi : Isolated h h' m v) (hg : Grown h' h1) : Isolated h h1 m v := by
  intro h'' hs
  refine hi h'' ⟨?_, ?_⟩
  · intro r h1' h2
    rw [hs.1 r h1' (Nat.lt_of_lt_of_le h2 hg.1.length_le), List.getElem?_eq_getElem h2]
    exact prefix_get hg.1 (List.getElem?_eq_getElem h2)
  · intro r h1' h2
    rw [hs.2 r h1' (Nat.lt_of_lt_of_le h2 hg.2.length_le), List.getElem?_eq_getElem h2]
    exact prefix_get hg.2 (List.getElem?_eq_getElem h2)

theorem isolated_older {h0 h h' : Heap K} {m : Nat} {v : List (List K)} (hi : Isolated h h' m v) (hg : Grown h0 h) : Isolated h0 h' m v := by
  intro h'' hs
  exact hi h'' ⟨fun r h1 h2 => hs.1 r (Nat.le_trans hg.1.length_le h1) h2, fun r h1 h2 => hs.2 r (Nat.le_trans hg.2.length_le h1) h2⟩

theorem isolated_now {h h' : Heap K} {m : Nat} {v : List (List K)} (hi : Isolated h h' m v) : deref h' m = some v :=
  hi h' ⟨fun _ _ _ => rfl, fun _ _ _ => rfl⟩

theorem deepcopy_spec {h h' : Heap K} {refs : List Nat} {m : Nat} {v : List (List K)} (hrun : deepcopy h refs = .ok (h', m))
    (hv : List.Forall₂ (fun r row => h.rows[r]? = some row) refs v) : Grown h h' ∧ Isolated h h' m v := by
  obtain ⟨⟨rows', o⟩, hc, he⟩ := (map_ok_iff _ _ _).1 hrun
  injection he with he1 he2; subst he1 he2
  have hlt : ∀ r ∈ refs, r < h.rows.length := by
    intro r hr
    obtain ⟨row, -, hrow⟩ := forall₂_mem_left hv hr
    exact (List.getElem?_eq_some_iff.1 hrow).1
  obtain ⟨hp, new, ho, hf⟩ := copyRows_spec h.rows.length refs h.rows [] [] rows' o hc le_rfl hlt (by intro r r' hx; cases hx)
  rw [List.nil_append] at ho; subst ho
  refine ⟨⟨hp, List.prefix_append _ _⟩, ?_⟩
  intro h'' hs
  refine deref_iff.2 ⟨o, ?_, ?_⟩
  · rw [hs.2 _ le_rfl (by simp)]; simp
  · have hs1 := hs.1
    dsimp only at hs1
    clear hc hlt hrun hs
    induction hf generalizing v with
    | nil => cases hv; exact .nil
    | cons h1 _ ih =>
      cases hv with
      | cons hv1 hv2 =>
        refine .cons ?_ (ih hv2)
        rw [hs1 _ h1.1 h1.2.1, h1.2.2, hv1]

/-- The two corners for given rows: a single state is taken twice. -/
theorem twoRows_spec {h : Heap K} {refs : List Nat} {v : List (List K)} (hv : List.Forall₂ (fun r row => h.rows[r]? = some row) refs v) :
    List.Forall₂ (fun r row => h.rows[r]? = some row) (twoRows refs) (corners v) := by
  unfold twoRows corners
  cases hv with
  | nil => simp
  | cons h1 h2 =>
    cases h2 with
    | nil => exact .cons h1 (.cons h1 .nil)
    | cons h2 h3 => simpa using ⟨h1, h2, h3⟩

theorem setInitSingle_spec {st st' : St K V} {id : String} {init : Nat} {mode static uncertain : List V}
    (hrun : setInitSingle st id init mode static uncertain = .ok st') :
    ∃ a rows m n, Dict.get? st.scen.agents id = some a ∧ deref st.heap init = some rows ∧ (rows.length = 1 ∨ rows.length = 2) ∧
      (∀ nc nd, a.sizes = some (nc, nd) → (∀ r ∈ rows, r.length = nc) ∧ mode.length = nd) ∧
      Grown st.heap st'.heap ∧ Isolated st.heap st'.heap m (corners rows) ∧
      Isolated st.heap st'.heap n (corners rows) ∧ m ≠ n ∧
      st'.scen = { agents := Dict.set st.scen.agents id { a with initCont := some n, initDisc := some mode, static := static, uncertain := uncertain }
                   init := Dict.set st.scen.init id m, mode := Dict.set st.scen.mode id mode, static := Dict.set st.scen.static id static
                   uncertain := Dict.set st.scen.uncertain id uncertain } := by
  unfold setInitSingle at hrun
  cases ha : Dict.get? st.scen.agents id with
  | none => rw [ha] at hrun; cases hrun
  | some a =>
    rw [ha] at hrun
    dsimp only at hrun
    cases hd : deref st.heap init with
    | none =>
      rw [hd] at hrun
      cases hm : st.heap.mats[init]? <;> rw [hm] at hrun <;> cases hrun
    | some rows =>
      obtain ⟨refs, hm, hf⟩ := deref_iff.1 hd
      rw [hd, hm] at hrun
      dsimp only at hrun
      by_cases hl : refs.length = 1 ∨ refs.length = 2
      · rw [if_pos hl] at hrun
        by_cases hs : sizesOk a rows mode = true
        · rw [if_pos hs] at hrun
          obtain ⟨⟨h1, m⟩, hp, hrun⟩ := (bind_ok_iff _ _ _).1 hrun
          obtain ⟨⟨h2, n⟩, hq, rfl⟩ := (map_ok_iff _ _ _).1 hrun
          dsimp only at hq ⊢
          obtain ⟨g1, i1⟩ := deepcopy_spec hp (twoRows_spec hf)
          obtain ⟨g2, i2⟩ := deepcopy_spec hq ((twoRows_spec hf).imp (fun _ _ hx => prefix_get g1.1 hx))
          refine ⟨a, rows, m, n, rfl, rfl, by rw [← hf.length_eq]; exact hl, ?_, grown_trans g1 g2, isolated_grown i1 g2, isolated_older i2 g1, ?_, rfl⟩
          · intro nc nd hsz
            unfold sizesOk at hs
            rw [hsz] at hs
            simp only [Bool.and_eq_true, List.all_eq_true, decide_eq_true_eq] at hs
            exact hs
          · obtain ⟨x, -, hx⟩ := (map_ok_iff _ _ _).1 hp
            obtain ⟨y, -, hy⟩ := (map_ok_iff _ _ _).1 hq
            injection hx with hx1 hx2; injection hy with hy1 hy2
            subst hx1 hx2 hy2
            simp
        · rw [if_neg hs] at hrun; cases hrun
      · rw [if_neg hl] at hrun; cases hrun

end Verif.Proofs.Scn
