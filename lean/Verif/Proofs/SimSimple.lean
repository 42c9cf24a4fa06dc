import Verif.Spec.SimSimple
import Verif.Proofs.Basic

set_option autoImplicit false
set_option linter.unusedSectionVars false

namespace Verif.Simple

open Verif.Sim (Row Err StateDict)
open Verif.Spec.Simple

/-! ### Dictionaries -/

theorem set_absent {A B : Type} [DecidableEq A] (d : Dict A B) (k : A) (v : B) (h : k ∉ d.map Prod.fst) : Dict.set d k v = d ++ [(k, v)] := by
  induction d with
  | nil => rfl
  | cons p d ih =>
    obtain ⟨k', v'⟩ := p
    simp only [List.map_cons, List.mem_cons, not_or] at h
    simp [Dict.set, Ne.symm h.1, ih h.2]

theorem foldl_set_nodup {A B : Type} [DecidableEq A] : ∀ (l : List (A × B)) (d : Dict A B), ((d ++ l).map Prod.fst).Nodup →
    l.foldl (fun d kv => Dict.set d kv.1 kv.2) d = d ++ l
  | [], d, _ => by simp
  | kv :: l, d, h => by
    have hk : kv.1 ∉ d.map Prod.fst := by
      rw [List.map_append, List.map_cons, List.nodup_append] at h
      intro hc
      exact h.2.2 _ hc _ (by simp) rfl
    rw [List.foldl_cons, set_absent d kv.1 kv.2 hk, foldl_set_nodup l (d ++ [kv]) (by simpa using h)]
    simp

theorem foldl_set_get {A B C : Type} [DecidableEq A] (g : C → A) (f : C → B) : ∀ (l : List C) (d : Dict A B), (l.map g).Nodup →
    (∀ x ∈ l, Dict.get? (l.foldl (fun d x => Dict.set d (g x) (f x)) d) (g x) = some (f x)) ∧
    ∀ k, k ∉ l.map g → Dict.get? (l.foldl (fun d x => Dict.set d (g x) (f x)) d) k = Dict.get? d k
  | [], d, _ => ⟨by simp, by simp⟩
  | c :: l, d, h => by
    rw [List.map_cons, List.nodup_cons] at h
    obtain ⟨h1, h2⟩ := foldl_set_get g f l (Dict.set d (g c) (f c)) h.2
    refine ⟨?_, ?_⟩
    · intro x hx
      rcases List.mem_cons.1 hx with rfl | hx
      · rw [List.foldl_cons, h2 _ h.1, Dict.get?_set_self]
      · exact h1 x hx
    · intro k hk
      rw [List.map_cons, List.mem_cons, not_or] at hk
      rw [List.foldl_cons, h2 k hk.2, Dict.get?_set_ne _ _ _ _ (Ne.symm hk.1)]

variable {R V : Type} [DecidableEq V]

theorem sameFields_iff (d e : Dict String V) : sameFields d e = true ↔ ∀ x, Dict.get? e x = Dict.get? d x := by
  unfold sameFields
  rw [Bool.and_eq_true, List.all_eq_true, List.all_eq_true]
  simp only [decide_eq_true_eq]
  constructor
  · rintro ⟨h1, h2⟩ x
    by_cases hd : (Dict.get? d x).isSome
    · obtain ⟨v, hv⟩ := Option.isSome_iff_exists.1 hd
      exact h1 (x, v) (Dict.mem_of_get? hv)
    · by_cases he : (Dict.get? e x).isSome
      · obtain ⟨v, hv⟩ := Option.isSome_iff_exists.1 he
        exact (h2 (x, v) (Dict.mem_of_get? hv)).symm
      · rw [Option.not_isSome_iff_eq_none.1 hd, Option.not_isSome_iff_eq_none.1 he]
  · exact fun h => ⟨fun kv _ => h kv.1, fun kv _ => (h kv.1).symm⟩

/-- What the decision logic is given, for a plain state definition. -/
theorem egoFields_eq (df : Def) (hs : df.static = []) (hn : (df.cont ++ df.disc).Nodup) (state mode static : List V) (h1 : state.length = df.cont.length)
    (h2 : mode.length = df.disc.length) : egoFields df state mode static = (df.cont ++ df.disc ++ df.static).zip (state ++ mode ++ static) := by
  have e1 : (df.cont ++ df.disc ++ df.static).zip (state ++ mode ++ static) = df.cont.zip state ++ df.disc.zip mode ++ df.static.zip static := by
    rw [List.zip_append (by simp [h1, h2]), List.zip_append h1.symm]
  rw [e1]
  unfold egoFields
  rw [foldl_set_nodup _ [] ?_, List.nil_append]
  rw [List.nil_append, hs, List.zip_nil_left, List.append_nil, List.map_append, List.map_fst_zip (by omega), List.map_fst_zip (by omega)]
  exact hn

theorem egoKeys (df : Def) (hs : df.static = []) (state mode static : List V) (h1 : state.length = df.cont.length)
    (h2 : mode.length = df.disc.length) : Dict.keys ((df.cont ++ df.disc ++ df.static).zip (state ++ mode ++ static)) = df.cont ++ df.disc := by
  unfold Dict.keys
  rw [hs, List.append_nil, List.map_fst_zip (by simp [h1, h2])]

theorem getFields_ok (out : Dict String V) (fs : List String) (vs : List V) (h : getFields out fs = .ok vs) : List.Forall₂ (fun x v => Dict.get? out x = some v) fs vs := by
  refine List.Forall₂.imp ?_ ((mapM_ok_iff _ _ _).1 h)
  intro f v hv
  split at hv
  · next w hw => injection hv with hv; rw [hw, hv]
  · cases hv

/-- The three possible decisions. -/
def DecidesAs (l : Logic R V) (e : Dict String V) (r : R) : Decision V → Prop
  | .stay => Stays l e r
  | .switch dest init => Switches l e r dest init
  | .failed label => Fails l e r label

theorem decision_spec (w : World R V) (l : Logic R V) (hp : Plain l) (a : String) (sd : StateDict V) (state mode static : List V)
    (h1 : state.length = l.ego.cont.length) (h2 : mode.length = l.ego.disc.length) (d : Decision V) (h : decision w l a sd state mode static = .ok d) :
    DecidesAs l ((l.ego.cont ++ l.ego.disc ++ l.ego.static).zip (state ++ mode ++ static)) (w.others a sd) d := by
  unfold decision at h
  dsimp only at h
  rw [egoFields_eq l.ego hp.static hp.nodup state mode static h1 h2] at h
  split at h
  swap
  · cases h
  have hk := egoKeys l.ego hp.static state mode static h1 h2
  generalize he : (l.ego.cont ++ l.ego.disc ++ l.ego.static).zip (state ++ mode ++ static) = e at h hk ⊢
  unfold decideOf at h
  cases hc : l.ctl e (w.others a sd) with
  | ret e' out =>
    have := hp.pure _ _ _ _ hc
    subst this
    rw [hc] at h
    dsimp only at h
    split at h
    · next hs => injection h with h; subst h; exact ⟨out, hc, (sameFields_iff _ _).1 hs⟩
    · next hs =>
      obtain ⟨dest, hd, h⟩ := (bind_ok_iff _ _ _).1 h
      obtain ⟨init, hi, h⟩ := (bind_ok_iff _ _ _).1 h
      injection h with h; subst h
      have hne : ∃ x, Dict.get? out x ≠ Dict.get? e' x := by
        by_contra hno
        push Not at hno
        exact hs ((sameFields_iff _ _).2 hno)
      have hdc : ∀ x ∈ l.ego.cont, discField l x = false := by
        intro x hx
        rw [discField, List.any_eq_false]
        intro df hdf
        simpa using hp.cont x hx df hdf
      have hdd : ∀ x ∈ l.ego.disc, discField l x = true := by
        intro x hx
        obtain ⟨df, hdf, hm⟩ := hp.disc x hx
        exact List.any_eq_true.2 ⟨df, hdf, by simpa using hm⟩
      have f1 : (l.ego.cont ++ l.ego.disc).filter (fun f => discField l f) = l.ego.disc := by
        rw [List.filter_append, List.filter_eq_nil_iff.2 (fun x hx => by simp [hdc x hx]), List.filter_eq_self.2 (fun x hx => hdd x hx), List.nil_append]
      have f2 : (l.ego.cont ++ l.ego.disc).filter (fun f => !discField l f) = l.ego.cont := by
        rw [List.filter_append, List.filter_eq_self.2 (fun x hx => by simp [hdc x hx]), List.filter_eq_nil_iff.2 (fun x hx => by simp [hdd x hx]), List.append_nil]
      rw [hk, f1] at hd
      rw [hk, f2] at hi
      exact ⟨out, hc, hne, getFields_ok _ _ _ hd, getFields_ok _ _ _ hi⟩
  | failed lab =>
    rw [hc] at h
    cases lab with
    | none => cases h
    | some s => injection h with h; subst h; exact hc
  | raised => rw [hc] at h; cases h

/-! ### One sample -/

theorem stateDict_snapshot (b : Body R V) (tr : Trace V) (i : Nat) (sd : StateDict V) (h : stateDict b tr i = .ok sd) : Snapshot b tr i sd := by
  refine List.Forall₂.imp ?_ ((mapM_ok_iff _ _ _).1 h)
  intro a x hx
  split at hx
  · next rows m s h1 h2 h3 =>
    split at hx
    · next r hr => injection hx with hx; subst hx; exact ⟨rfl, ⟨rows, h1, hr⟩, h2, h3⟩
    · cases hx
  · cases hx

theorem mem_deciders (b : Body R V) (a : String) (l : Logic R V) : (a, l) ∈ deciders b ↔ (a, l) ∈ b.agents ∧ Decides l := by
  unfold deciders Decides
  rw [List.mem_filter]
  simp

/-- The traces of all agents have rows of the right size. -/
def RowsOk (b : Body R V) (tr : Trace V) : Prop :=
  ∀ a l rows row, (a, l) ∈ b.agents → Decides l → Dict.get? tr a = some rows → row ∈ rows → row.state.length = l.ego.cont.length

theorem decAt_spec (w : World R V) (b : Body R V) (hw : WF w b) (tr : Trace V) (hr : RowsOk b tr) (idx : Nat) (sd : StateDict V) (hsd : stateDict b tr idx = .ok sd)
    (a : String) (l : Logic R V) (ha : (a, l) ∈ b.agents) (hd : Decides l) (d : Decision V) (h : decAt w b tr idx sd (a, l) = .ok d) :
    ∃ e r, Sees w b tr idx a l e r ∧ DecidesAs l e r d := by
  unfold decAt at h
  split at h
  · next rows m s h1 h2 h3 =>
    split at h
    · next row hrow =>
      have hsnap := stateDict_snapshot b tr idx sd hsd
      obtain ⟨x, hx, e1, ⟨rows', e2, e3⟩, e4, e5⟩ := forall₂_mem_left hsnap ha
      dsimp only at h1 h2 h3 e1 e2 e4 e5 h
      rw [h1] at e2; injection e2 with e2; subst e2
      rw [hrow] at e3; injection e3 with e3
      rw [h2] at e4; injection e4 with e4
      rw [h3] at e5; injection e5 with e5
      have hx' : (a, row, m, s) ∈ sd := by
        have : x = (a, row, m, s) := by
          obtain ⟨x1, x2, x3, x4⟩ := x
          dsimp only at e1 e3 e4 e5
          rw [e1, ← e3, ← e4, ← e5]
        rw [← this]; exact hx
      refine ⟨_, _, ⟨sd, row, m, s, hsnap, hx', rfl, rfl⟩, ?_⟩
      exact decision_spec w l (hw.plain a l ha hd) a sd row.state m s (hr a l rows row ha hd h1 (List.mem_of_getElem? hrow)) (hw.mode a l m ha hd h2) d h
    · cases h
  · cases h

/-- What the sample collects. -/
structure SampleSpec (w : World R V) (b : Body R V) (tr : Trace V) (idx : Nat) (s : Sample V) (dec : String × Logic R V → Decision V) : Prop where
  seen : ∀ a l, (a, l) ∈ b.agents → Decides l → ∃ e r, Sees w b tr idx a l e r ∧ DecidesAs l e r (dec (a, l))
  asserts : ∀ a label, Dict.get? s.asserts a = some label ↔ ∃ l, (a, l) ∈ b.agents ∧ Decides l ∧ dec (a, l) = .failed label
  satisfied : ∀ t, t ∈ s.satisfied ↔ ∃ l, (t.1, l) ∈ b.agents ∧ Decides l ∧ dec (t.1, l) = .switch t.2.1 t.2.2
  nodup : (s.satisfied.map Prod.fst).Nodup

theorem sample_spec (w : World R V) (b : Body R V) (hw : WF w b) (tr : Trace V) (hr : RowsOk b tr) (idx : Nat) (s : Sample V) (h : sample w b tr idx = .ok s) :
    ∃ dec, SampleSpec w b tr idx s dec := by
  unfold sample at h
  obtain ⟨sd, hsd, h⟩ := (bind_ok_iff _ _ _).1 h
  obtain ⟨dec, hdec⟩ : ∃ dec : String × Logic R V → Decision V, ∀ a d, decAt w b tr idx sd a = .ok d → dec a = d :=
    ⟨fun a => match decAt w b tr idx sd a with | .ok d => d | .error _ => .stay, fun a d hd => by simp only [hd]⟩
  have hnd : ((deciders b).map Prod.fst).Nodup := List.Nodup.sublist (List.filter_sublist.map _) hw.names
  have hinv := foldlM_inv_pre (P := fun pre acc =>
      (∀ a ∈ pre, decAt w b tr idx sd a = .ok (dec a)) ∧
      ((pre.map Prod.fst).Nodup →
      (∀ a label, Dict.get? acc.asserts a = some label ↔ ∃ l, (a, l) ∈ pre ∧ dec (a, l) = .failed label) ∧
      (∀ t, t ∈ acc.satisfied ↔ ∃ l, (t.1, l) ∈ pre ∧ dec (t.1, l) = .switch t.2.1 t.2.2) ∧
      (acc.satisfied.map Prod.fst).Nodup)) h
    ⟨(fun a ha => absurd ha (List.not_mem_nil)), fun _ => ⟨by simp [Dict.get?_nil], by simp, by simp⟩⟩ ?_
  · obtain ⟨h0, hrest⟩ := hinv
    obtain ⟨h1, h2, h3⟩ := hrest hnd
    refine ⟨dec, ?_, ?_, ?_, h3⟩
    · intro a l ha hd
      exact decAt_spec w b hw tr hr idx sd hsd a l ha hd _ (h0 _ ((mem_deciders b a l).2 ⟨ha, hd⟩))
    · intro a label
      rw [h1]
      simp only [mem_deciders, and_assoc]
    · intro t
      rw [h2]
      simp only [mem_deciders, and_assoc]
  · intro pre a acc acc' ha ⟨h0, hrest⟩ hstep
    obtain ⟨d, hd, rfl⟩ := (map_ok_iff _ _ _).1 hstep
    have hda := hdec a d hd
    refine ⟨?_, ?_⟩
    · intro x hx
      rcases List.mem_append.1 hx with hx | hx
      · exact h0 x hx
      · rw [List.mem_singleton.1 hx, hda]; exact hd
    · intro hn
      rw [List.map_append, List.nodup_append] at hn
      have hna : a.1 ∉ pre.map Prod.fst := fun hc => hn.2.2 _ hc _ (by simp) rfl
      have hnl : ∀ l, (a.1, l) ∉ pre := fun l hl => hna (List.mem_map.2 ⟨_, hl, rfl⟩)
      obtain ⟨h1, h2, h3⟩ := hrest hn.1
      obtain ⟨a1, al⟩ := a
      dsimp only at hna hnl ⊢
      have hcases : ∀ (x : String) (D : Decision V), (∃ l, (x, l) ∈ pre ++ [(a1, al)] ∧ dec (x, l) = D) ↔ (∃ l, (x, l) ∈ pre ∧ dec (x, l) = D) ∨ (x = a1 ∧ d = D) := by
        intro x D
        constructor
        · rintro ⟨l, hl, hP⟩
          rcases List.mem_append.1 hl with hl | hl
          · exact .inl ⟨l, hl, hP⟩
          · have := List.mem_singleton.1 hl
            injection this with e1 e2
            subst e1; subst e2
            exact .inr ⟨rfl, hda.symm.trans hP⟩
        · rintro (⟨l, hl, hP⟩ | ⟨rfl, hP⟩)
          · exact ⟨l, List.mem_append_left _ hl, hP⟩
          · exact ⟨al, by simp, hda.trans hP⟩
      refine ⟨?_, ?_, ?_⟩
      · intro x label
        rw [hcases]
        cases d with
        | stay => rw [record, h1]; simp
        | switch dest init => rw [record]; dsimp only; rw [h1]; simp
        | failed lab =>
          rw [record]; dsimp only
          rw [Dict.get?_set]
          split
          · next e =>
            subst e
            have : ¬ ∃ l, (a1, l) ∈ pre ∧ dec (a1, l) = .failed label := fun ⟨l, hl, _⟩ => hnl l hl
            simp only [this, false_or, true_and, Option.some.injEq, Decision.failed.injEq]
          · next e =>
            rw [h1]
            have : ¬ x = a1 := fun hc => e hc.symm
            simp [this]
      · intro t
        rw [hcases]
        cases d with
        | stay => rw [record, h2]; simp
        | failed lab => rw [record]; dsimp only; rw [h2]; simp
        | switch dest init =>
          rw [record]; dsimp only
          rw [List.mem_append, h2]
          apply or_congr_right
          rw [List.mem_singleton]
          constructor
          · rintro rfl; exact ⟨rfl, rfl⟩
          · rintro ⟨e1, e2⟩
            injection e2 with e2 e3
            obtain ⟨t1, t2, t3⟩ := t
            dsimp only at e1 e2 e3
            rw [e1, e2, e3]
      · cases d with
        | stay => exact h3
        | failed lab => exact h3
        | switch dest init =>
          rw [record]; dsimp only
          rw [List.map_append, List.nodup_append]
          refine ⟨h3, by simp, ?_⟩
          intro x hx y hy e
          simp only [List.map_cons, List.map_nil, List.mem_singleton] at hy
          subst hy; subst e
          obtain ⟨t, ht, rfl⟩ := List.mem_map.1 hx
          obtain ⟨l, hl, _⟩ := (h2 t).1 ht
          exact hna (List.mem_map_of_mem (f := Prod.fst) hl)

theorem quiet_of_empty (w : World R V) (b : Body R V) (hw : WF w b) (tr : Trace V) (hr : RowsOk b tr) (idx : Nat) (h : sample w b tr idx = .ok ⟨[], []⟩) : Quiet w b tr idx := by
  obtain ⟨dec, hd⟩ := sample_spec w b hw tr hr idx _ h
  intro a l ha hl
  obtain ⟨e, r, hs, hdec⟩ := hd.seen a l ha hl
  refine ⟨e, r, hs, ?_⟩
  cases hx : dec (a, l) with
  | stay => rw [hx] at hdec; exact hdec
  | failed lab =>
    have := (hd.asserts a lab).2 ⟨l, ha, hl, hx⟩
    simp [Dict.get?_nil] at this
  | switch dest init =>
    have := (hd.satisfied (a, dest, init)).2 ⟨l, ha, hl, hx⟩
    simp at this

/-- What the loop over the samples finds. -/
theorem scan_spec (w : World R V) (b : Body R V) (tr : Trace V) : ∀ (left idx : Nat) (f : Found V), scan w b tr left idx = .ok f →
    (f.asserts = none ∧ f.trans = [] ∧ ∀ j, idx ≤ j → j < idx + left → sample w b tr j = .ok ⟨[], []⟩) ∨
    ((∀ j, idx ≤ j → j < f.idx → sample w b tr j = .ok ⟨[], []⟩) ∧ ∃ s, sample w b tr f.idx = .ok s ∧
      ((s.asserts ≠ [] ∧ f.asserts = some s.asserts) ∨ (s.asserts = [] ∧ s.satisfied ≠ [] ∧ f.asserts = none ∧ f.trans = groupTrans s.satisfied)))
  | 0, idx, f, h => by
    rw [scan] at h
    split at h
    · cases h
    · injection h with h; subst h
      exact .inl ⟨rfl, rfl, fun j h1 h2 => absurd h2 (by omega)⟩
  | left + 1, idx, f, h => by
    rw [scan] at h
    obtain ⟨s, hs, h⟩ := (bind_ok_iff _ _ _).1 h
    split at h
    · next ha =>
      injection h with h; subst h
      exact .inr ⟨fun j h1 h2 => absurd h2 (by simp; omega), s, hs, .inl ⟨ha, rfl⟩⟩
    · next ha =>
      have ha : s.asserts = [] := by simpa using ha
      split at h
      · next hb =>
        have hse : s = ⟨[], []⟩ := by cases s; simp_all
        rw [hse] at hs
        rcases scan_spec w b tr left (idx + 1) f h with ⟨h1, h2, h3⟩ | ⟨h1, h2⟩
        · refine .inl ⟨h1, h2, fun j hj hj' => ?_⟩
          rcases Nat.eq_or_lt_of_le hj with rfl | hj
          · exact hs
          · exact h3 j hj (by omega)
        · refine .inr ⟨fun j hj hj' => ?_, h2⟩
          rcases Nat.eq_or_lt_of_le hj with rfl | hj
          · exact hs
          · exact h1 j hj hj'
      · next hb =>
        injection h with h; subst h
        exact .inr ⟨fun j h1 h2 => absurd h2 (by simp; omega), s, hs, .inr ⟨ha, hb, rfl, rfl⟩⟩

theorem groupTrans_nodup (l : List (String × List V × List V)) (h : (l.map Prod.fst).Nodup) : groupTrans l = l.map (fun t => (t.1, [t])) := by
  have key : ∀ (l : List (String × List V × List V)) (pre : List (String × List V × List V)), ((pre ++ l).map Prod.fst).Nodup →
      l.foldl (fun (d : Dict String (List (String × List V × List V))) t => Dict.set d t.1 ((Dict.get? d t.1).getD [] ++ [t])) (pre.map (fun t => (t.1, [t])))
        = (pre ++ l).map (fun t => (t.1, [t])) := by
    intro l
    induction l with
    | nil => intro pre _; simp
    | cons t l ih =>
      intro pre hn
      have hk : t.1 ∉ (pre.map (fun t => (t.1, [t]))).map Prod.fst := by
        rw [List.map_append, List.map_cons, List.nodup_append] at hn
        intro hc
        rw [List.map_map] at hc
        exact hn.2.2 t.1 (by simpa using hc) t.1 (by simp) rfl
      have hg : Dict.get? (pre.map (fun t => (t.1, [t]))) t.1 = none := (Dict.get?_none_iff _ _).2 hk
      rw [List.foldl_cons, hg, Option.getD_none, List.nil_append, set_absent _ _ _ hk]
      have := ih (pre ++ [t]) (by simpa using hn)
      simpa using this
  have := key l [] (by simpa using h)
  simpa [groupTrans] using this

theorem product_singletons {A : Type} : ∀ l : List A, product (l.map (fun t => [t])) = [l]
  | [] => rfl
  | a :: l => by simp [product, product_singletons l]

/-- The simulated traces. -/
theorem traces_spec (w : World R V) (b : Body R V) (hn : (b.agents.map Prod.fst).Nodup) (start remain : ℚ) (tr full : Trace V) (h : traces w b start remain tr = .ok full) :
    Simulated w b start remain full ∧ ∀ a, (Dict.get? full a).isSome → (Dict.get? tr a).isSome ∨ a ∈ b.agents.map Prod.fst := by
  unfold traces at h
  have hinv := foldlM_inv_pre (P := fun pre full => ((pre.map Prod.fst).Nodup → ∀ a l, (a, l) ∈ pre → ∃ m i, Dict.get? b.mode a = some m ∧ Dict.get? b.init a = some i ∧
      Dict.get? full a = some ((w.sim a m i remain).map (fun row => { row with time := row.time + start }))) ∧
      ∀ a, (Dict.get? full a).isSome → (Dict.get? tr a).isSome ∨ a ∈ b.agents.map Prod.fst) h ⟨fun _ a l ha => absurd ha (List.not_mem_nil), fun a ha => .inl ha⟩ ?_
  · exact ⟨hinv.1 hn, hinv.2⟩
  · intro pre a acc acc' ha ⟨h1, h2⟩ hstep
    split at hstep
    · next m i hm hi =>
      injection hstep with hstep; subst hstep
      refine ⟨?_, ?_⟩
      · intro hnd x l hx
        rw [List.map_append, List.nodup_append] at hnd
        by_cases hxa : x = a.1
        · subst hxa
          exact ⟨m, i, hm, hi, Dict.get?_set_self _ _ _⟩
        · rcases List.mem_append.1 hx with hx | hx
          · obtain ⟨m', i', e1, e2, e3⟩ := h1 hnd.1 x l hx
            exact ⟨m', i', e1, e2, by rw [Dict.get?_set_ne _ _ _ _ (Ne.symm hxa)]; exact e3⟩
          · exact absurd (congrArg Prod.fst (List.mem_singleton.1 hx)) hxa
      · intro x hx
        by_cases hxa : x = a.1
        · subst hxa; exact .inr (List.mem_map_of_mem (f := Prod.fst) ha)
        · rw [Dict.get?_set_ne _ _ _ _ (Ne.symm hxa)] at hx
          exact h2 x hx
    · cases hstep

theorem rowsOk_of_simulated (w : World R V) (b : Body R V) (hw : WF w b) (start remain : ℚ) (full : Trace V) (h : Simulated w b start remain full) : RowsOk b full := by
  intro a l rows row ha hd hr hrow
  obtain ⟨m, i, _, _, h3⟩ := h a l ha
  rw [h3] at hr; injection hr with hr; subst hr
  obtain ⟨r', hr', rfl⟩ := List.mem_map.1 hrow
  exact hw.rows a l m i remain r' ha hd hr'

theorem cutTraces_spec (b : Body R V) (hn : (b.agents.map Prod.fst).Nodup) (f : List (Row V) → List (Row V)) (tr cut : Trace V) (h : cutTraces b f tr = .ok cut) :
    (∀ a l, (a, l) ∈ b.agents → Dict.get? cut a = (Dict.get? tr a).map f) ∧ cut.map Prod.fst = b.agents.map Prod.fst := by
  unfold cutTraces at h
  have hf := (mapM_ok_iff _ _ _).1 h
  have hkeys : cut.map Prod.fst = b.agents.map Prod.fst := by
    clear h hn
    revert hf
    generalize b.agents = l
    intro hf
    induction hf with
    | nil => rfl
    | cons h1 _ ih =>
      rw [List.map_cons, List.map_cons, ih]
      split at h1
      · injection h1 with h1; subst h1; rfl
      · cases h1
  refine ⟨?_, hkeys⟩
  intro a l ha
  obtain ⟨x, hx, hax⟩ := forall₂_mem_left hf ha
  split at hax
  · next rows hrows =>
    injection hax with hax; subst hax
    rw [Dict.get?_of_mem (by rw [hkeys]; exact hn) hx, hrows]; rfl
  · cases hax

/-- The initial values for the agents that do not change. -/
theorem rest_spec (agents : List (String × Logic R V)) (trunc : Trace V) (init : Dict String (List V)) (ti : Trace V × Dict String (List V))
    (h : agents.foldlM (restStep trunc) ([], init) = .ok ti) :
    (∀ a v, Dict.get? init a = some v → Dict.get? ti.2 a = some v) ∧
    (∀ a l, (a, l) ∈ agents → Dict.get? init a = none → ∃ r rows, Dict.get? trunc a = some (r :: rows) ∧ Dict.get? ti.2 a = some r.state) ∧
    (∀ a, (Dict.get? ti.1 a).isSome → a ∈ agents.map Prod.fst) := by
  have hinv := foldlM_inv_pre (P := fun pre acc =>
      (∀ a v, Dict.get? init a = some v → Dict.get? acc.2 a = some v) ∧
      (∀ a l, (a, l) ∈ pre → (Dict.get? acc.2 a).isSome) ∧
      (∀ a v, Dict.get? init a = none → Dict.get? acc.2 a = some v → ∃ r rows, Dict.get? trunc a = some (r :: rows) ∧ v = r.state) ∧
      (∀ a, (Dict.get? acc.1 a).isSome → a ∈ agents.map Prod.fst)) h
    ⟨fun _ _ h => h, fun a l ha => absurd ha (List.not_mem_nil), fun a v h1 h2 => (by rw [h1] at h2; cases h2), fun a ha => by simp [Dict.get?_nil] at ha⟩ ?_
  · obtain ⟨h1, h2, h3, h4⟩ := hinv
    refine ⟨h1, ?_, h4⟩
    intro a l ha hi
    obtain ⟨v, hv⟩ := Option.isSome_iff_exists.1 (h2 a l ha)
    obtain ⟨r, rows, e1, e2⟩ := h3 a v hi hv
    exact ⟨r, rows, e1, by rw [hv, e2]⟩
  · intro pre a acc acc' ha ⟨h1, h2, h3, h4⟩ hstep
    unfold restStep at hstep
    split at hstep
    · next hs =>
      injection hstep with hstep; subst hstep
      refine ⟨h1, ?_, h3, h4⟩
      intro x l hx
      rcases List.mem_append.1 hx with hx | hx
      · exact h2 x l hx
      · have := congrArg Prod.fst (List.mem_singleton.1 hx)
        dsimp only at this
        rw [this]; exact hs
    · next hs =>
      split at hstep
      · next r rows hr =>
        injection hstep with hstep; subst hstep
        refine ⟨?_, ?_, ?_, ?_⟩
        · intro x v hx
          dsimp only
          rw [Dict.get?_set_ne]
          · exact h1 x v hx
          · rintro rfl
            rw [h1 _ v hx] at hs; exact hs rfl
        · intro x l hx
          dsimp only
          rw [Dict.get?_set]
          split
          · rfl
          · next hne =>
            rcases List.mem_append.1 hx with hx | hx
            · exact h2 x l hx
            · exact absurd (congrArg Prod.fst (List.mem_singleton.1 hx)).symm hne
        · intro x v hi hv
          dsimp only at hv
          rw [Dict.get?_set] at hv
          split at hv
          · next hxa =>
            subst hxa
            injection hv with hv
            exact ⟨r, rows, hr, hv.symm⟩
          · exact h3 x v hi hv
        · intro x hx
          dsimp only at hx
          rw [Dict.get?_set] at hx
          split at hx
          · next hxa => subst hxa; exact List.mem_map_of_mem (f := Prod.fst) ha
          · exact h4 x hx
      · cases hstep
      · cases hstep

/-- A node that was not simulated yet. -/
structure Fresh (w : World R V) (n : Rec R V) : Prop where
  wf    : WF w n.body
  child : n.child = []
  keys  : ∀ a, (Dict.get? n.trace a).isSome → a ∈ n.body.agents.map Prod.fst

theorem drop_head {A : Type} (l : List A) (k : Nat) (r : A) (rows : List A) (h : l.drop k = r :: rows) : l[k]? = some r := by
  have : (l.drop k)[0]? = some r := by rw [h]; rfl
  rwa [List.getElem?_drop, Nat.add_zero] at this

theorem mkChild_spec (w : World R V) (roundN : ℚ → ℚ) (n : Rec R V) (hw : WF w n.body) (full trunc cut : Trace V) (hr : RowsOk n.body full) (k : Nat)
    (ht : cutTraces n.body (fun rows => rows.drop k) full = .ok trunc) (hc : cutTraces n.body (fun rows => rows.take (k + 1)) full = .ok cut)
    (hq : ∀ j, j < k → Quiet w n.body full j) (s : Sample V) (hs : sample w n.body full k = .ok s) (has : s.asserts = []) (hne : s.satisfied ≠ [])
    (c : Rec R V) (h : mkChild roundN n trunc s.satisfied = .ok c) :
    Continues w roundN { n with trace := cut, hits := none } c full k ∧ Fresh w c := by
  obtain ⟨dec, hd⟩ := sample_spec w n.body hw full hr k s hs
  obtain ⟨ht1, ht2⟩ := cutTraces_spec n.body hw.names _ full trunc ht
  obtain ⟨hc1, _⟩ := cutTraces_spec n.body hw.names _ full cut hc
  unfold mkChild at h
  obtain ⟨t, htime, h⟩ := (bind_ok_iff _ _ _).1 h
  dsimp only at h
  obtain ⟨ti, hti, rfl⟩ := (map_ok_iff _ _ _).1 h
  obtain ⟨r1, r2, r3⟩ := rest_spec n.body.agents trunc _ ti hti
  obtain ⟨m1, m2⟩ := foldl_set_get (fun x : String × List V × List V => x.1) (fun x => x.2.1) s.satisfied n.body.mode hd.nodup
  obtain ⟨i1, i2⟩ := foldl_set_get (fun x : String × List V × List V => x.1) (fun x => x.2.2) s.satisfied [] hd.nodup
  have uniq : ∀ a l l', (a, l) ∈ n.body.agents → (a, l') ∈ n.body.agents → l = l' := by
    intro a l l' h1 h2
    have e1 := Dict.get?_of_mem hw.names h1
    have e2 := Dict.get?_of_mem hw.names h2
    rw [e1] at e2; injection e2
  have hnofail : ∀ a l, (a, l) ∈ n.body.agents → Decides l → ∀ lab, dec (a, l) ≠ .failed lab := by
    intro a l ha hl lab hx
    have := (hd.asserts a lab).2 ⟨l, ha, hl, hx⟩
    rw [has] at this
    simp [Dict.get?_nil] at this
  refine ⟨⟨rfl, hc1, hq, ?_, rfl, ⟨rfl, rfl⟩, ?_, ?_⟩, ⟨⟨hw.names, hw.some_, hw.plain, ?_, hw.rows⟩, rfl, r3⟩⟩
  · -- the start time
    obtain ⟨a, r, rows, rest, rfl⟩ : ∃ a r rows rest, trunc = (a, r :: rows) :: rest := by
      rcases trunc with _ | ⟨⟨a, _ | ⟨r, rows⟩⟩, rest⟩
      · cases htime
      · cases htime
      · exact ⟨a, r, rows, rest, rfl⟩
    · injection htime with htime; subst htime
      cases hag : n.body.agents with
      | nil => exact absurd hag hw.some_
      | cons p ps =>
        obtain ⟨a', l⟩ := p
        rw [hag] at ht2
        have hmem : (a', l) ∈ n.body.agents := by rw [hag]; exact List.mem_cons_self
        have haa : a = a' := by injection ht2
        subst haa
        have e := ht1 a l hmem
        rw [Dict.get?_cons, if_pos rfl] at e
        cases hfa : Dict.get? full a with
        | none => rw [hfa] at e; cases e
        | some rows' =>
          rw [hfa] at e
          injection e with e
          exact ⟨a, l, rows', r, rfl, hfa, drop_head _ _ _ _ e.symm, rfl⟩
  · -- someone changes
    obtain ⟨t', hmem⟩ := List.exists_mem_of_ne_nil _ hne
    obtain ⟨l, hl1, hl2, hl3⟩ := (hd.satisfied t').1 hmem
    obtain ⟨e, r, hsee, hdec⟩ := hd.seen t'.1 l hl1 hl2
    rw [hl3] at hdec
    exact ⟨t'.1, l, e, r, t'.2.1, t'.2.2, hl1, hl2, hsee, hdec⟩
  · -- the new state
    intro a l ha
    by_cases hex : ∃ dest init, Decides l ∧ dec (a, l) = .switch dest init
    · obtain ⟨dest, init, hl, hx⟩ := hex
      left
      obtain ⟨e, r, hsee, hdec⟩ := hd.seen a l ha hl
      rw [hx] at hdec
      have hmem : (a, dest, init) ∈ s.satisfied := (hd.satisfied (a, dest, init)).2 ⟨l, ha, hl, hx⟩
      exact ⟨e, r, dest, init, hl, hsee, hdec, m1 _ hmem, r1 _ _ (i1 _ hmem)⟩
    · right
      have hnot : a ∉ s.satisfied.map (fun x => x.1) := by
        intro hcn
        obtain ⟨t', ht', rfl⟩ := List.mem_map.1 hcn
        obtain ⟨l', hl1, hl2, hl3⟩ := (hd.satisfied t').1 ht'
        have := uniq _ _ _ ha hl1
        subst this
        exact hex ⟨_, _, hl2, hl3⟩
      refine ⟨?_, m2 a hnot, ?_⟩
      · intro hl
        obtain ⟨e, r, hsee, hdec⟩ := hd.seen a l ha hl
        refine ⟨e, r, hsee, ?_⟩
        cases hx : dec (a, l) with
        | stay => rw [hx] at hdec; exact hdec
        | failed lab => exact absurd hx (hnofail a l ha hl lab)
        | switch dest init => exact absurd ⟨dest, init, hl, hx⟩ hex
      · obtain ⟨r, rows, e1, e2⟩ := r2 a l ha (by rw [i2 a hnot, Dict.get?_nil])
        rw [ht1 a l ha] at e1
        cases hfa : Dict.get? full a with
        | none => rw [hfa] at e1; cases e1
        | some rows' =>
          rw [hfa] at e1
          injection e1 with e1
          exact ⟨rows', r, rfl, drop_head _ _ _ _ e1, e2⟩
  · -- the sizes of the modes
    intro a l m ha hl hm
    dsimp only at hm ha
    by_cases hx : a ∈ s.satisfied.map (fun x => x.1)
    · obtain ⟨t', ht', rfl⟩ := List.mem_map.1 hx
      rw [m1 t' ht'] at hm
      injection hm with hm; subst hm
      obtain ⟨l', hl1, hl2, hl3⟩ := (hd.satisfied t').1 ht'
      have := uniq _ _ _ ha hl1
      subst this
      obtain ⟨e, r, _, hdec⟩ := hd.seen _ _ hl1 hl2
      rw [hl3] at hdec
      obtain ⟨_, _, _, hf, _⟩ := hdec
      exact hf.length_eq.symm
    · rw [m2 a hx] at hm
      exact hw.mode a l m ha hl hm

theorem snapshot_unique (b : Body R V) (tr : Trace V) (i : Nat) (sd sd' : StateDict V) (h : Snapshot b tr i sd) (h' : Snapshot b tr i sd') : sd = sd' := by
  unfold Snapshot at h h'
  revert h h'
  generalize b.agents = l
  intro h
  induction h generalizing sd' with
  | nil => intro h'; cases h'; rfl
  | cons h1 _ ih =>
    intro h'
    cases h' with
    | cons g1 g2 =>
      rw [ih _ g2]
      obtain ⟨p1, ⟨rows, p2, p3⟩, p4, p5⟩ := h1
      obtain ⟨q1, ⟨rows', q2, q3⟩, q4, q5⟩ := g1
      rw [p2] at q2; injection q2 with q2; subst q2
      rw [p3] at q3; injection q3 with q3
      rw [p4] at q4; injection q4 with q4
      rw [p5] at q5; injection q5 with q5
      congr 1
      exact Prod.ext (p1.trans q1.symm) (Prod.ext q3 (Prod.ext q4 q5))

theorem snapshot_keys (b : Body R V) (tr : Trace V) (i : Nat) (sd : StateDict V) (h : Snapshot b tr i sd) : sd.map Prod.fst = b.agents.map Prod.fst := by
  unfold Snapshot at h
  revert h
  generalize b.agents = l
  intro h
  induction h with
  | nil => rfl
  | cons h1 _ ih => rw [List.map_cons, List.map_cons, ih, h1.1]

theorem sees_unique (w : World R V) (b : Body R V) (hn : (b.agents.map Prod.fst).Nodup) (tr : Trace V) (i : Nat) (a : String) (l : Logic R V) (e e' : Dict String V) (r r' : R)
    (h : Sees w b tr i a l e r) (h' : Sees w b tr i a l e' r') : e = e' ∧ r = r' := by
  obtain ⟨sd, row, m, s, h1, h2, rfl, rfl⟩ := h
  obtain ⟨sd', row', m', s', g1, g2, rfl, rfl⟩ := h'
  have := snapshot_unique b tr i sd sd' h1 g1
  subst this
  have e1 := Dict.get?_of_mem (by rw [snapshot_keys b tr i sd h1]; exact hn) h2
  have e2 := Dict.get?_of_mem (by rw [snapshot_keys b tr i sd h1]; exact hn) g2
  rw [e1] at e2
  injection e2 with e2
  injection e2 with e2 e3
  injection e3 with e3 e4
  subst e2; subst e3; subst e4
  exact ⟨rfl, rfl⟩

/-- What the simulation of one node produces. -/
theorem expand_spec (w : World R V) (roundN : ℚ → ℚ) (n : Rec R V) (hf : Fresh w n) (remain : ℚ) (n' : Rec R V) (kids : List (Rec R V))
    (h : expand w roundN n remain = .ok (n', kids)) :
    n'.body = n.body ∧ n'.start = n.start ∧ n'.height = n.height ∧ n'.child = [] ∧ ∃ full, Simulated w n.body n.start remain full ∧
      ((kids = [] ∧ (Ends w n' full ∨ ∃ k labels, Stopped w n' full k labels)) ∨ ∃ k c, kids = [c] ∧ Continues w roundN n' c full k ∧ Fresh w c) := by
  unfold expand at h
  obtain ⟨full, hfull, h⟩ := (bind_ok_iff _ _ _).1 h
  obtain ⟨f, hfound, h⟩ := (bind_ok_iff _ _ _).1 h
  obtain ⟨hsim, hkeys⟩ := traces_spec w n.body hf.wf.names _ _ _ _ hfull
  have hr := rowsOk_of_simulated w n.body hf.wf _ _ _ hsim
  -- the loop over the samples
  obtain ⟨a0, rows0, rest, hcons⟩ : ∃ a0 rows0 rest, full = (a0, rows0) :: rest := by
    cases full with
    | nil => cases hfound
    | cons p rest => exact ⟨p.1, p.2, rest, rfl⟩
  have hscan : scan w n.body full rows0.length 0 = .ok f := by
    unfold getTransition at hfound
    rw [hcons] at hfound ⊢
    exact hfound
  have hget0 : Dict.get? full a0 = some rows0 := by rw [hcons, Dict.get?_cons, if_pos rfl]
  have ha0 : a0 ∈ n.body.agents.map Prod.fst := by
    rcases hkeys a0 (by rw [hget0]; rfl) with h0 | h0
    · exact hf.keys a0 h0
    · exact h0
  obtain ⟨p0, hp0, hp0'⟩ := List.mem_map.1 ha0
  have hspec := scan_spec w n.body full _ _ _ hscan
  split at h
  · next hnone =>
    injection h with h
    injection h with h1 h2
    subst h1; subst h2
    refine ⟨rfl, rfl, rfl, hf.child, full, hsim, .inl ⟨rfl, .inl ⟨hf.child, rfl, fun _ _ _ => rfl, ?_⟩⟩⟩
    intro i hi
    have hlt : i < rows0.length := hi p0.1 p0.2 rows0 hp0 (by rw [hp0']; exact hget0)
    refine quiet_of_empty w n.body hf.wf full hr i ?_
    rcases hspec with ⟨_, _, hs⟩ | ⟨_, s, hs, hcase⟩
    · exact hs i (Nat.zero_le _) (by omega)
    · exfalso
      rcases hcase with ⟨_, e⟩ | ⟨_, hne, _, e⟩
      · rw [hnone.2] at e; cases e
      · obtain ⟨dec, hd⟩ := sample_spec w n.body hf.wf full hr f.idx s hs
        rw [hnone.1, groupTrans_nodup _ hd.nodup] at e
        exact hne (List.map_eq_nil_iff.1 e.symm)
  · next hnone =>
    obtain ⟨trunc, htrunc, h⟩ := (bind_ok_iff _ _ _).1 h
    obtain ⟨cut, hcut, h⟩ := (bind_ok_iff _ _ _).1 h
    obtain ⟨hc1, _⟩ := cutTraces_spec n.body hf.wf.names _ full cut hcut
    rcases hspec with ⟨e1, e2, _⟩ | ⟨hq, s, hs, hcase⟩
    · exact absurd ⟨e2, e1⟩ hnone
    · have hq' : ∀ j, j < f.idx → Quiet w n.body full j := fun j hj => quiet_of_empty w n.body hf.wf full hr j (hq j (Nat.zero_le _) hj)
      rcases hcase with ⟨hne, e⟩ | ⟨has, hne, e1, e2⟩
      · rw [e] at h
        dsimp only at h
        injection h with h
        injection h with h1 h2
        subst h1; subst h2
        obtain ⟨dec, hd⟩ := sample_spec w n.body hf.wf full hr f.idx s hs
        refine ⟨rfl, rfl, rfl, hf.child, full, hsim, .inl ⟨rfl, .inr ⟨f.idx, s.asserts, hf.child, rfl, hne, hc1, hq', ?_⟩⟩⟩
        intro a label
        rw [hd.asserts]
        constructor
        · rintro ⟨l, ha, hl, hx⟩
          obtain ⟨e', r, hsee, hdec⟩ := hd.seen a l ha hl
          rw [hx] at hdec
          exact ⟨l, e', r, ha, hl, hsee, hdec⟩
        · rintro ⟨l, e', r, ha, hl, hsee, hfail⟩
          refine ⟨l, ha, hl, ?_⟩
          obtain ⟨e2, r2, hsee2, hdec⟩ := hd.seen a l ha hl
          obtain ⟨he, hr'⟩ := sees_unique w n.body hf.wf.names full f.idx a l e' e2 r r2 hsee hsee2
          subst he; subst hr'
          unfold Fails at hfail
          cases hx : dec (a, l) with
          | stay => rw [hx] at hdec; obtain ⟨out, ho, _⟩ := hdec; rw [hfail] at ho; cases ho
          | switch dest init => rw [hx] at hdec; obtain ⟨out, ho, _⟩ := hdec; rw [hfail] at ho; cases ho
          | failed lab => rw [hx] at hdec; have hdec : l.ctl e' r = .failed (some lab) := hdec; rw [hfail] at hdec; injection hdec with hdec; injection hdec with hdec; rw [hdec]
      · rw [e1] at h
        dsimp only at h
        obtain ⟨dec, hd⟩ := sample_spec w n.body hf.wf full hr f.idx s hs
        have hprod : product (f.trans.map Prod.snd) = [s.satisfied] := by
          rw [e2, groupTrans_nodup _ hd.nodup, List.map_map]
          exact product_singletons s.satisfied
        rw [hprod] at h
        obtain ⟨ks, hks, h⟩ := (map_ok_iff _ _ _).1 h
        obtain ⟨c, hc, rfl⟩ : ∃ c, mkChild roundN n trunc s.satisfied = .ok c ∧ ks = [c] := by
          have hF := (mapM_ok_iff _ _ _).1 hks
          cases hF with
          | cons h1 h2 => cases h2; exact ⟨_, h1, rfl⟩
        injection h with h1 h2
        subst h1; subst h2
        obtain ⟨hcont, hfresh⟩ := mkChild_spec w roundN n hf.wf full trunc cut hr f.idx htrunc hcut hq' s hs has hne c hc
        exact ⟨rfl, rfl, rfl, hf.child, full, hsim, .inr ⟨f.idx, c, rfl, hcont, hfresh⟩⟩

/-! ### The loop -/

theorem skips_iff (c : Cfg) (n : Rec R V) : c.skips n = true ↔ (∃ m, c.maxHeight = some m ∧ m ≤ n.height + 1) ∨ c.round10 (c.horizon - n.start) ≤ 0 := by
  unfold Cfg.skips Cfg.tooDeep
  rw [Bool.or_eq_true, decide_eq_true_eq]
  apply or_congr_left
  cases c.maxHeight with
  | none => simp
  | some m => simp

/-- Nodes before `i` are complete. -/
def Before (w : World R V) (c : Cfg) (nodes : List (Rec R V)) (i : Nat) : Prop :=
  ∀ (j : Nat) (n : Rec R V), j < i → nodes[j]? = some n → ∃ m full k, nodes[j + 1]? = some m ∧ n.child = [j + 1] ∧
    Simulated w n.body n.start (c.round10 (c.horizon - n.start)) full ∧ 0 < c.round10 (c.horizon - n.start) ∧ Continues w c.roundN n m full k

theorem continues_congr {w : World R V} {roundN : ℚ → ℚ} {n c n' c' : Rec R V} {full : Trace V} {k : Nat} (h : Continues w roundN n c full k)
    (h1 : n'.hits = n.hits) (h2 : n'.trace = n.trace) (h3 : n'.body = n.body) (h4 : n'.height = n.height)
    (e1 : c'.start = c.start) (e2 : c'.height = c.height) (e3 : c'.body = c.body) : Continues w roundN n' c' full k := by
  refine ⟨?_, ?_, ?_, ?_, ?_, ?_, ?_, ?_⟩
  · rw [h1]; exact h.hits
  · rw [h2, h3]; exact h.trace
  · rw [h3]; exact h.quiet
  · rw [h3, e1]; exact h.start
  · rw [h4, e2]; exact h.height
  · rw [h3, e3]; exact h.agents
  · rw [h3]; exact h.change
  · rw [h3, e3]; exact h.state

theorem run_spec (w : World R V) (c : Cfg) : ∀ (fuel : Nat) (pre : List (Rec R V)) (n : Rec R V) (nodes : List (Rec R V)), Fresh w n → Before w c (pre ++ [n]) pre.length →
    run w c fuel (pre ++ [n]) [pre.length] = .ok (some nodes) →
    Run w c nodes ∧ ∀ (i : Nat) (m : Rec R V), (pre ++ [n])[i]? = some m → ∃ m', nodes[i]? = some m' ∧ m'.body = m.body ∧ m'.start = m.start ∧ m'.height = m.height
  | 0, pre, n, nodes, _, _, h => by rw [run] at h; cases h
  | fuel + 1, pre, n, nodes, hf, hb, h => by
    rw [run] at h
    rw [List.getElem?_concat_length] at h
    dsimp only at h
    split at h
    · next hs =>
      have h : run w c fuel (pre ++ [n]) [] = .ok (some nodes) := h
      have h : nodes = pre ++ [n] := by
        cases fuel <;> (rw [run] at h; injection h with h; injection h with h; exact h.symm)
      subst h
      refine ⟨?_, fun i m hm => ⟨m, hm, rfl, rfl, rfl⟩⟩
      intro i m hm
      rcases Nat.lt_or_ge i pre.length with hi | hi
      · exact .inr (hb i m hi hm)
      · have hi' : i < (pre ++ [n]).length := (List.getElem?_eq_some_iff.1 hm).1
        rw [List.length_append, List.length_singleton] at hi'
        have : i = pre.length := by omega
        subst this
        rw [List.getElem?_concat_length] at hm
        injection hm with hm; subst hm
        exact .inl ⟨by simp, .inl ⟨hf.child, (skips_iff c n).1 hs⟩⟩
    · next hs =>
      obtain ⟨⟨n', kids⟩, hexp, h⟩ := (bind_ok_iff _ _ _).1 h
      have hpos : 0 < c.round10 (c.horizon - n.start) := by
        by_contra hle
        exact hs ((skips_iff c n).2 (.inr (not_lt.1 hle)))
      obtain ⟨hb1, hb2, hb3, hb4, full, hsim, hcase⟩ := expand_spec w c.roundN n hf _ n' kids hexp
      dsimp only at h
      have hset : ∀ x : Rec R V, (pre ++ [n]).set pre.length x = pre ++ [x] := by
        intro x
        rw [List.set_append_right _ _ (Nat.le_refl _)]
        simp
      rw [hset, hb4, List.nil_append] at h
      rcases hcase with ⟨hk, hcase⟩ | ⟨k, ch, hk, hcont, hfresh⟩
      · subst hk
        have h : run w c fuel (pre ++ [{ n' with child := [] }]) [] = .ok (some nodes) := by simpa using h
        have h : nodes = pre ++ [{ n' with child := [] }] := by
          cases fuel <;> (rw [run] at h; injection h with h; injection h with h; exact h.symm)
        have he : ({ n' with child := [] } : Rec R V) = n' := by cases n'; dsimp only at hb4; subst hb4; rfl
        rw [he] at h
        subst h
        have hrel : ∀ (i : Nat) (m : Rec R V), (pre ++ [n])[i]? = some m → ∃ m', (pre ++ [n'])[i]? = some m' ∧ m'.body = m.body ∧ m'.start = m.start ∧ m'.height = m.height := by
          intro i m hm
          rcases Nat.lt_or_ge i pre.length with hi | hi
          · rw [List.getElem?_append_left hi] at hm
            exact ⟨m, by rw [List.getElem?_append_left hi]; exact hm, rfl, rfl, rfl⟩
          · have hi' : i < (pre ++ [n]).length := (List.getElem?_eq_some_iff.1 hm).1
            rw [List.length_append, List.length_singleton] at hi'
            have : i = pre.length := by omega
            subst this
            rw [List.getElem?_concat_length] at hm
            injection hm with hm; subst hm
            exact ⟨n', List.getElem?_concat_length, hb1, hb2, hb3⟩
        refine ⟨?_, hrel⟩
        intro i m hm
        rcases Nat.lt_or_ge i pre.length with hi | hi
        · right
          rw [List.getElem?_append_left hi] at hm
          obtain ⟨m1, full1, k1, q1, q2, q3, q4, q5⟩ := hb i m hi (by rw [List.getElem?_append_left hi]; exact hm)
          obtain ⟨m', p1, p2, p3, p4⟩ := hrel _ _ q1
          exact ⟨m', full1, k1, p1, q2, q3, q4, continues_congr q5 rfl rfl rfl rfl p3 p4 p2⟩
        · have hi' : i < (pre ++ [n']).length := (List.getElem?_eq_some_iff.1 hm).1
          rw [List.length_append, List.length_singleton] at hi'
          have : i = pre.length := by omega
          subst this
          rw [List.getElem?_concat_length] at hm
          injection hm with hm; subst hm
          refine .inl ⟨by simp, .inr ⟨full, by rw [hb1, hb2]; exact hsim, hcase⟩⟩
      · subst hk
        have hlen : (pre ++ [n]).length = pre.length + 1 := by simp
        have h : run w c fuel ((pre ++ [{ n' with child := [pre.length + 1] }]) ++ [ch]) [(pre ++ [{ n' with child := [pre.length + 1] }]).length] = .ok (some nodes) := by
          simpa [List.range_succ] using h
        set nn : Rec R V := { n' with child := [pre.length + 1] } with hnn
        have hrel : ∀ (i : Nat) (m : Rec R V), (pre ++ [n])[i]? = some m → ∃ m', (pre ++ [nn] ++ [ch])[i]? = some m' ∧ m'.body = m.body ∧ m'.start = m.start ∧ m'.height = m.height := by
          intro i m hm
          rcases Nat.lt_or_ge i pre.length with hi | hi
          · rw [List.getElem?_append_left hi] at hm
            exact ⟨m, by rw [List.append_assoc, List.getElem?_append_left hi]; exact hm, rfl, rfl, rfl⟩
          · have hi' : i < (pre ++ [n]).length := (List.getElem?_eq_some_iff.1 hm).1
            rw [List.length_append, List.length_singleton] at hi'
            have : i = pre.length := by omega
            subst this
            rw [List.getElem?_concat_length] at hm
            injection hm with hm; subst hm
            exact ⟨nn, by rw [List.getElem?_append_left (by simp)]; exact List.getElem?_concat_length, hb1, hb2, hb3⟩
        have hch : (pre ++ [nn] ++ [ch])[pre.length + 1]? = some ch := by
          have := List.getElem?_concat_length (l := pre ++ [nn]) (a := ch)
          rwa [List.length_append, List.length_singleton] at this
        have hb' : Before w c (pre ++ [nn] ++ [ch]) (pre ++ [nn]).length := by
          intro j m hj hm
          rw [List.length_append, List.length_singleton] at hj
          rcases Nat.lt_or_ge j pre.length with hi | hi
          · rw [List.append_assoc, List.getElem?_append_left hi] at hm
            obtain ⟨m1, full1, k1, q1, q2, q3, q4, q5⟩ := hb j m hi (by rw [List.getElem?_append_left hi]; exact hm)
            obtain ⟨m', p1, p2, p3, p4⟩ := hrel _ _ q1
            exact ⟨m', full1, k1, p1, q2, q3, q4, continues_congr q5 rfl rfl rfl rfl p3 p4 p2⟩
          · have : j = pre.length := by omega
            subst this
            rw [List.getElem?_append_left (by simp), List.getElem?_concat_length] at hm
            injection hm with hm; subst hm
            have hcc : Continues w c.roundN nn ch full k := continues_congr hcont rfl rfl rfl rfl rfl rfl rfl
            refine ⟨ch, full, k, hch, rfl, ?_, ?_, hcc⟩
            · have e1 : nn.body = n.body := hb1
              have e2 : nn.start = n.start := hb2
              rw [e1, e2]; exact hsim
            · have e2 : nn.start = n.start := hb2
              rw [e2]; exact hpos
        obtain ⟨hrun, hrel'⟩ := run_spec w c fuel (pre ++ [nn]) ch nodes hfresh hb' h
        refine ⟨hrun, ?_⟩
        intro i m hm
        obtain ⟨m', p1, p2, p3, p4⟩ := hrel i m hm
        obtain ⟨m'', s1, s2, s3, s4⟩ := hrel' i m' p1
        exact ⟨m'', s1, s2.trans p2, s3.trans p3, s4.trans p4⟩

/-- A bound on the height bounds the number of iterations. -/
theorem run_terminates (w : World R V) (c : Cfg) (mh : Nat) (hm : c.maxHeight = some mh) : ∀ (fuel : Nat) (pre : List (Rec R V)) (n : Rec R V), Fresh w n → mh ≤ n.height + fuel →
    0 < fuel → run w c fuel (pre ++ [n]) [pre.length] ≠ .ok none
  | 0, pre, n, _, _, h0 => absurd h0 (by omega)
  | fuel + 1, pre, n, hf, hle, _ => by
    intro h
    rw [run, List.getElem?_concat_length] at h
    dsimp only at h
    have hend : ∀ l : List (Rec R V), run w c fuel l [] ≠ .ok none := by
      intro l hl
      cases fuel <;> (rw [run] at hl; injection hl with hl; cases hl)
    split at h
    · exact hend _ h
    · next hs =>
      obtain ⟨⟨n', kids⟩, hexp, h⟩ := (bind_ok_iff _ _ _).1 h
      obtain ⟨hb1, hb2, hb3, hb4, full, hsim, hcase⟩ := expand_spec w c.roundN n hf _ n' kids hexp
      dsimp only at h
      have hset : ∀ x : Rec R V, (pre ++ [n]).set pre.length x = pre ++ [x] := by
        intro x
        rw [List.set_append_right _ _ (Nat.le_refl _)]
        simp
      rw [hset, hb4, List.nil_append] at h
      rcases hcase with ⟨hk, hcase⟩ | ⟨k, ch, hk, hcont, hfresh⟩
      · subst hk
        exact hend _ (by simpa using h)
      · subst hk
        have h : run w c fuel ((pre ++ [{ n' with child := [pre.length + 1] }]) ++ [ch]) [(pre ++ [{ n' with child := [pre.length + 1] }]).length] = .ok none := by
          simpa [List.range_succ] using h
        have hdeep : ¬ mh ≤ n.height + 1 := fun hc => hs ((skips_iff c n).2 (.inl ⟨mh, hm, hc⟩))
        have hht := hcont.height
        exact run_terminates w c mh hm fuel _ ch hfresh (by omega) (by omega) h

end Verif.Simple
