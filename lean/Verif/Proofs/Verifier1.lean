import Verif.Spec.Verifier
import Verif.Proofs.Basic

/-! The parts of `get_transition_verify_opt` against the specification: preparing and checking the guards, and the scan. -/

set_option autoImplicit false
set_option linter.unusedSectionVars false

namespace Verif.Proofs.Ver

open Verif.Ver Verif.Ver.Spec

variable {S G K V D : Type}

theorem stateDict_ok_iff (b : Body S G K V D) (tr : Trace K) (i : Nat) (sd : StateDict K V) :
    stateDict b tr i = .ok sd ↔ Boxes b tr i sd := by
  unfold stateDict Boxes
  rw [mapM_ok_iff]
  have key : ∀ (a : String × Logic S G K V D) (x : String × Seg K × List V × List V),
      (match Dict.get? tr a.1, Dict.get? b.mode a.1, Dict.get? b.static a.1 with
        | some rows, some m, some s => match rows[i]? with
          | some r => (Except.ok (a.1, r, m, s) : Except String _)
          | none => .error "IndexError"
        | _, _, _ => .error "KeyError") = .ok x ↔
      x.1 = a.1 ∧ (∃ rows, Dict.get? tr a.1 = some rows ∧ rows[i]? = some x.2.1) ∧
        Dict.get? b.mode a.1 = some x.2.2.1 ∧ Dict.get? b.static a.1 = some x.2.2.2 := by
    intro a x
    obtain ⟨x1, x2, x3, x4⟩ := x
    cases h1 : Dict.get? tr a.1 <;> cases h2 : Dict.get? b.mode a.1 <;> cases h3 : Dict.get? b.static a.1 <;>
      simp only [reduceCtorEq, false_and, exists_false, and_false, Option.some.injEq, exists_eq_left']
    rename_i rows m s
    cases h4 : rows[i]? with
    | none => simp
    | some r =>
      simp only [Except.ok.injEq, Prod.mk.injEq, Option.some.injEq]
      tauto
  constructor
  · intro h; exact h.imp (fun a x hx => (key a x).1 hx)
  · intro h; exact h.imp (fun a x hx => (key a x).2 hx)

theorem boxes_det {b : Body S G K V D} {tr : Trace K} {i : Nat} {s1 s2 : StateDict K V}
    (h1 : Boxes b tr i s1) (h2 : Boxes b tr i s2) : s1 = s2 := by
  have a1 := (stateDict_ok_iff b tr i s1).2 h1
  have a2 := (stateDict_ok_iff b tr i s2).2 h2
  rw [a1] at a2; cases a2; rfl

/-- What `group` yields. -/
theorem group_get {α β : Type} [DecidableEq β] (key : α → β) (l : List α) :
    ((group key l).map Prod.fst).Nodup ∧
    ∀ k, Dict.get? (group key l) k = if l.filter (fun x => decide (key x = k)) = [] then none else some (l.filter (fun x => decide (key x = k))) := by
  unfold group
  refine foldl_inv_pre (fun pre d => (d.map Prod.fst).Nodup ∧ ∀ k, Dict.get? d k =
    if pre.filter (fun x => decide (key x = k)) = [] then none else some (pre.filter (fun x => decide (key x = k)))) l []
    ⟨by simp, by simp⟩ ?_
  intro pre x d _ ⟨h1, h2⟩
  refine ⟨Dict.nodup_set h1 _ _, fun k => ?_⟩
  rw [Dict.get?_set]
  by_cases hk : key x = k
  · subst hk
    simp only [if_true, List.filter_append, List.filter_cons, decide_true, List.filter_nil]
    rw [if_neg (by simp), h2]
    split
    · rename_i h; rw [h]; simp
    · rfl
  · rw [if_neg hk, h2]
    simp [List.filter_append, hk]

theorem mem_group {α β : Type} [DecidableEq β] (key : α → β) (l : List α) (k : β) (g : List α) :
    (k, g) ∈ group key l ↔ g = l.filter (fun x => decide (key x = k)) ∧ g ≠ [] := by
  obtain ⟨h1, h2⟩ := group_get key l
  constructor
  · intro h
    have := Dict.get?_of_mem h1 h
    rw [h2] at this
    split at this
    · cases this
    · rename_i hne; cases this; exact ⟨rfl, hne⟩
  · rintro ⟨rfl, h⟩
    apply Dict.mem_of_get?
    rw [h2, if_neg h]

theorem group_eq_nil {α β : Type} [DecidableEq β] (key : α → β) (l : List α) : group key l = [] ↔ l = [] := by
  constructor
  · intro h
    by_contra hl
    obtain ⟨x, hx⟩ := List.exists_mem_of_ne_nil l hl
    have : (key x, l.filter (fun y => decide (key y = key x))) ∈ group key l := by
      rw [mem_group]
      refine ⟨rfl, List.ne_nil_of_mem (List.mem_filter.2 ⟨hx, by simp⟩)⟩
    rw [h] at this
    cases this
  · rintro rfl; rfl

theorem preparePaths_spec (s0 : S) (ps : List (Path S G K V D)) (l : List (Prepared S G K V D)) (h : preparePaths s0 ps = .ok l) :
    (∀ x ∈ l, x.path ∈ ps ∧ x.s0 = s0 ∧ x.path.prep s0 = .ok (some x.g)) ∧
    ∀ p ∈ ps, p.prep s0 = .ok none ∨ ∃ g, p.prep s0 = .ok (some g) ∧ ⟨p, g, s0⟩ ∈ l := by
  induction ps generalizing l with
  | nil => cases h; exact ⟨by simp, by simp⟩
  | cons p ps ih =>
    obtain ⟨o, h1, h2⟩ := (bind_ok_iff _ _ _).1 h
    cases o with
    | none =>
      obtain ⟨i1, i2⟩ := ih l h2
      refine ⟨fun x hx => ?_, fun q hq => ?_⟩
      · obtain ⟨a1, a2⟩ := i1 x hx
        exact ⟨by simp [a1], a2⟩
      · rcases List.mem_cons.1 hq with rfl | hq
        · exact .inl h1
        · exact i2 q hq
    | some g =>
      obtain ⟨l', h3, h4⟩ := (map_ok_iff _ _ _).1 h2
      subst h4
      obtain ⟨i1, i2⟩ := ih l' h3
      refine ⟨fun x hx => ?_, fun q hq => ?_⟩
      · rcases List.mem_cons.1 hx with rfl | hx
        · exact ⟨by simp, rfl, h1⟩
        · obtain ⟨a1, a2⟩ := i1 x hx
          exact ⟨by simp [a1], a2⟩
      · rcases List.mem_cons.1 hq with rfl | hq
        · exact .inr ⟨g, h1, by simp⟩
        · rcases i2 q hq with h | ⟨g', a, b⟩
          · exact .inl h
          · exact .inr ⟨g', a, by simp [b]⟩

theorem prepare_spec {w : World S K V} {b : Body S G K V D} (hn : (b.agents.map Prod.fst).Nodup) {tr : Trace K}
    {prep : Dict String (List (Prepared S G K V D))} (h : prepare w b tr = .ok prep) :
    ∃ sd0, Boxes b tr 0 sd0 ∧ ∀ a dl, Controlled b a dl → ∃ l, Dict.get? prep a = some l ∧ preparePaths (w.sense a sd0) dl.paths = .ok l := by
  obtain ⟨sd0, h1, h2⟩ := (bind_ok_iff _ _ _).1 h
  rw [stateDict_ok_iff] at h1
  refine ⟨sd0, h1, fun a dl hc => ?_⟩
  rw [mapM_ok_iff] at h2
  have hmem : (a, dl) ∈ b.agents.filter (fun a => decide (a.2.nargs ≠ 0)) := by
    rw [List.mem_filter]; exact ⟨hc.1, by simpa using hc.2⟩
  obtain ⟨y, hy, hy2⟩ := forall₂_mem_left h2 hmem
  obtain ⟨l, hl, rfl⟩ := (map_ok_iff _ _ _).1 hy2
  refine ⟨l, Dict.get?_of_mem ?_ hy, hl⟩
  have hk : prep.map Prod.fst = (b.agents.filter (fun a => decide (a.2.nargs ≠ 0))).map Prod.fst := by
    clear hmem hy hl h
    generalize b.agents.filter (fun a => decide (a.2.nargs ≠ 0)) = as at h2
    induction h2 with
    | nil => rfl
    | cons hr _ ih =>
      obtain ⟨l, _, rfl⟩ := (map_ok_iff _ _ _).1 hr
      simp [ih]
  rw [hk]
  exact hn.sublist (List.Sublist.map _ List.filter_sublist)

/-- The hit that a prepared guard makes. -/
def Makes (s : S) (p : Prepared S G K V D) (h : Hit S G K V D) : Prop :=
  ∃ C, p.path.cont p.g s = .ok C ∧ h = ⟨p.path, ⟨p.path.var, p.path.val, p.path.disc p.s0, C⟩⟩

theorem checkPaths_spec (s : S) (ps : List (Prepared S G K V D)) (r : Dict String (List (Hit S G K V D)) × Bool)
    (h : ps.foldlM (checkPath s) ([], false) = .ok r) :
    ∃ hs, r.1 = group (fun (h : Hit S G K V D) => h.path.var) hs ∧
      (∀ x ∈ ps, ∃ q, x.path.check x.g s = .ok q ∧ (q.1 = true → ∃ h ∈ hs, Makes s x h)) ∧
      (∀ h ∈ hs, ∃ x ∈ ps, Makes s x h ∧ ∃ c, x.path.check x.g s = .ok (true, c)) ∧
      (r.2 = true ↔ ∃ x ∈ ps, ∃ q, x.path.check x.g s = .ok (q, true)) := by
  refine foldlM_inv_pre (fun (pre : List (Prepared S G K V D)) (r : Dict String (List (Hit S G K V D)) × Bool) => ∃ hs, r.1 = group (fun (h : Hit S G K V D) => h.path.var) hs ∧
      (∀ x ∈ pre, ∃ q, x.path.check x.g s = .ok q ∧ (q.1 = true → ∃ h ∈ hs, Makes s x h)) ∧
      (∀ h ∈ hs, ∃ x ∈ pre, Makes s x h ∧ ∃ c, x.path.check x.g s = .ok (true, c)) ∧
      (r.2 = true ↔ ∃ x ∈ pre, ∃ q, x.path.check x.g s = .ok (q, true))) h ?_ ?_
  · exact ⟨[], rfl, by simp, by simp, by simp⟩
  · intro pre x r r' _ hinv hstep
    obtain ⟨hs, e1, e2, e3, e4⟩ := hinv
    unfold checkPath at hstep
    obtain ⟨q, hq, hstep⟩ := (bind_ok_iff _ _ _).1 hstep
    have hcont : (r.2 || q.2) = true ↔ ∃ y ∈ pre ++ [x], ∃ q, y.path.check y.g s = .ok (q, true) := by
      rw [Bool.or_eq_true, e4]
      constructor
      · rintro (⟨y, hy, hh⟩ | hh)
        · exact ⟨y, by simp [hy], hh⟩
        · exact ⟨x, by simp, q.1, by rw [hq, ← hh]⟩
      · rintro ⟨y, hy, q', hh⟩
        rcases List.mem_append.1 hy with hy | hy
        · exact .inl ⟨y, hy, q', hh⟩
        · simp only [List.mem_singleton] at hy
          subst hy
          rw [hq] at hh
          cases hh
          exact .inr rfl
    by_cases hb : q.1 = true
    · rw [if_pos hb] at hstep
      obtain ⟨C, hC, rfl⟩ := (map_ok_iff _ _ _).1 hstep
      refine ⟨hs ++ [⟨x.path, ⟨x.path.var, x.path.val, x.path.disc x.s0, C⟩⟩], ?_, ?_, ?_, hcont⟩
      · simp only [e1, group, List.foldl_append, List.foldl_cons, List.foldl_nil]
      · intro y hy
        rcases List.mem_append.1 hy with hy | hy
        · obtain ⟨q', a1, a2⟩ := e2 y hy
          refine ⟨q', a1, fun hh => ?_⟩
          obtain ⟨z, z1, z2⟩ := a2 hh
          exact ⟨z, by simp [z1], z2⟩
        · simp only [List.mem_singleton] at hy
          subst hy
          exact ⟨q, hq, fun _ => ⟨_, List.mem_append_right _ (List.mem_singleton.2 rfl), C, hC, rfl⟩⟩
      · intro z hz
        rcases List.mem_append.1 hz with hz | hz
        · obtain ⟨y, y1, y2⟩ := e3 z hz
          exact ⟨y, by simp [y1], y2⟩
        · simp only [List.mem_singleton] at hz
          subst hz
          exact ⟨x, by simp, ⟨C, hC, rfl⟩, q.2, by rw [hq, ← hb]⟩
    · rw [if_neg hb] at hstep
      cases hstep
      refine ⟨hs, e1, ?_, ?_, hcont⟩
      · intro y hy
        rcases List.mem_append.1 hy with hy | hy
        · exact e2 y hy
        · simp only [List.mem_singleton] at hy
          subst hy
          exact ⟨q, hq, fun hh => absurd hh hb⟩
      · intro z hz
        obtain ⟨y, y1, y2⟩ := e3 z hz
        exact ⟨y, by simp [y1], y2⟩

theorem failing_spec (s : S) (l : List (Assertion S)) (r : List String) (h : failing s l = .ok r) :
    ∀ x, x ∈ r ↔ ∃ a ∈ l, a.label = x ∧ a.pre s = .ok (true, true) ∧ ∃ q, a.cond s = .ok q ∧ q ≠ (true, true) := by
  induction l generalizing r with
  | nil => cases h; simp
  | cons a l ih =>
    obtain ⟨f, h1, h2⟩ := (bind_ok_iff _ _ _).1 h
    obtain ⟨r', h3, rfl⟩ := (map_ok_iff _ _ _).1 h2
    have hf : f = true ↔ a.pre s = .ok (true, true) ∧ ∃ q, a.cond s = .ok q ∧ q ≠ (true, true) := by
      unfold assertFails at h1
      obtain ⟨p, hp, h1⟩ := (bind_ok_iff _ _ _).1 h1
      obtain ⟨p1, p2⟩ := p
      rw [hp]
      by_cases hb : (p1 && p2) = true
      · rw [if_pos hb] at h1
        obtain ⟨c, hc, rfl⟩ := (map_ok_iff _ _ _).1 h1
        rw [Bool.and_eq_true] at hb
        obtain ⟨rfl, rfl⟩ := hb
        rw [hc]
        obtain ⟨c1, c2⟩ := c
        cases c1 <;> cases c2 <;> simp
      · rw [if_neg hb] at h1
        cases h1
        cases p1 <;> cases p2 <;> simp_all
    intro x
    have ih' := ih r' h3 x
    by_cases hb : f = true
    · rw [if_pos hb]
      simp only [List.mem_cons, exists_eq_or_imp, ih']
      constructor
      · rintro (rfl | h)
        · exact .inl ⟨rfl, hf.1 hb⟩
        · exact .inr h
      · rintro (⟨rfl, -⟩ | h)
        · exact .inl rfl
        · exact .inr h
    · rw [if_neg hb]
      simp only [List.mem_cons, exists_eq_or_imp, ih']
      constructor
      · exact .inr
      · rintro (⟨-, h⟩ | h)
        · exact absurd (hf.2 h) hb
        · exact h

theorem failing_evaluated (s : S) (l : List (Assertion S)) (r : List String) (h : failing s l = .ok r) :
    ∀ y ∈ l, (∃ r, y.pre s = .ok r) ∧ (y.pre s = .ok (true, true) → ∃ q, y.cond s = .ok q) := by
  induction l generalizing r with
  | nil => simp
  | cons a l ih =>
    obtain ⟨f, h1, h2⟩ := (bind_ok_iff _ _ _).1 h
    obtain ⟨r', h3, rfl⟩ := (map_ok_iff _ _ _).1 h2
    intro y hy
    rcases List.mem_cons.1 hy with rfl | hy
    · unfold assertFails at h1
      refine ⟨?_, fun hpre => ?_⟩
      · obtain ⟨p, hp, _⟩ := (bind_ok_iff _ _ _).1 h1
        exact ⟨p, hp⟩
      · rw [hpre] at h1
        obtain ⟨c, hc, _⟩ := (map_ok_iff _ _ _).1 h1
        exact ⟨c, hc⟩
    · exact ih r' h3 y hy

/-- The combination of hits that a choice makes. -/
def Combo (w : World S K V) (b : Body S G K V D) (tr : Trace K) (i : Nat) (a : String)
    (sel : String → Option (Path S G K V D)) (combo : List (Hit S G K V D)) : Prop :=
  (combo.map (fun h => h.path.var)).Nodup ∧
  (∀ h ∈ combo, sel h.path.var = some h.path ∧ ∃ sd0 sd g C, Boxes b tr 0 sd0 ∧ Boxes b tr i sd ∧
    h.path.prep (w.sense a sd0) = .ok (some g) ∧ h.path.cont g (w.sense a sd) = .ok C ∧
    h.item = ⟨h.path.var, h.path.val, h.path.disc (w.sense a sd0), C⟩) ∧
  ∀ v p, sel v = some p → ∃ h ∈ combo, h.path = p

/-- What `checkSample` knows after the agents `pre`. -/
structure SampleSpec (w : World S K V) (b : Body S G K V D) (tr : Trace K) (i : Nat) (pre : List (String × Logic S G K V D))
    (s : Sample S G K V D) : Prop where
  fails : ∀ a x, (∃ ls, Dict.get? s.asserts a = some ls ∧ x ∈ ls) ↔ ∃ dl y, (a, dl) ∈ pre ∧ y.label = x ∧ y ∈ dl.asserts ∧ FailsAt w b tr i a y
  nonempty : ∀ a ls, Dict.get? s.asserts a = some ls → ls ≠ []
  hits : s.asserts = [] → ∀ a dl, (a, dl) ∈ pre → ∀ sel, Selects w b tr i a dl sel →
    ∃ combo, (a, combo) ∈ s.hits ∧ Combo w b tr i a sel combo
  noHit : s.asserts = [] → (s.hits ≠ [] ↔ ∃ a dl p, (a, dl) ∈ pre ∧ HitAt w b tr i a p)
  contained : s.asserts = [] → (s.contained = true ↔ ∃ a dl p, (a, dl) ∈ pre ∧ ContainedAt w b tr i a p)
  asked : s.asserts = [] → ∀ a dl p, (a, dl) ∈ pre → p ∈ dl.paths →
    (∃ sd0, Boxes b tr 0 sd0 ∧ p.prep (w.sense a sd0) = .ok none) ∨ ∃ r, Asked w b tr i a p r
  evaluated : ∀ a dl x sd, (a, dl) ∈ pre → x ∈ dl.asserts → Boxes b tr i sd → (∃ r, x.pre (w.sense a sd) = .ok r) ∧
    (x.pre (w.sense a sd) = .ok (true, true) → ∃ q, x.cond (w.sense a sd) = .ok q)

theorem forall₂_choose {α β : Type} {R : α → β → Prop} (l : List β) (h : ∀ y ∈ l, ∃ x, R x y) : ∃ xs, List.Forall₂ R xs l := by
  induction l with
  | nil => exact ⟨[], .nil⟩
  | cons y l ih =>
    obtain ⟨x, hx⟩ := h y (by simp)
    obtain ⟨xs, hxs⟩ := ih (fun z hz => h z (by simp [hz]))
    exact ⟨x :: xs, .cons hx hxs⟩

/-- The combinations of one agent. -/
theorem product_spec {w : World S K V} {b : Body S G K V D} {tr : Trace K} {i : Nat} {a : String} {dl : Logic S G K V D}
    (hs : List (Hit S G K V D))
    (h1 : ∀ p ∈ dl.paths, HitAt w b tr i a p → ∃ h ∈ hs, h.path = p)
    (h2 : ∀ h ∈ hs, h.path ∈ dl.paths ∧ HitAt w b tr i a h.path ∧ ∃ sd0 sd g C, Boxes b tr 0 sd0 ∧ Boxes b tr i sd ∧
      h.path.prep (w.sense a sd0) = .ok (some g) ∧ h.path.cont g (w.sense a sd) = .ok C ∧
      h.item = ⟨h.path.var, h.path.val, h.path.disc (w.sense a sd0), C⟩)
    (sel : String → Option (Path S G K V D)) (hsel : Selects w b tr i a dl sel) :
    ∃ combo, combo ∈ product ((group (fun (h : Hit S G K V D) => h.path.var) hs).map Prod.snd) ∧ Combo w b tr i a sel combo := by
  obtain ⟨s1, s2, s3⟩ := hsel
  obtain ⟨combo, hc⟩ := forall₂_choose (R := fun (h : Hit S G K V D) (kl : String × List (Hit S G K V D)) => h ∈ kl.2 ∧ sel kl.1 = some h.path)
    (group (fun (h : Hit S G K V D) => h.path.var) hs) (by
      rintro ⟨k, l⟩ hkl
      rw [mem_group] at hkl
      obtain ⟨rfl, hne⟩ := hkl
      obtain ⟨x, hx⟩ := List.exists_mem_of_ne_nil _ hne
      rw [List.mem_filter, decide_eq_true_eq] at hx
      obtain ⟨x1, rfl⟩ := hx
      obtain ⟨q1, q2, q3⟩ := h2 x x1
      obtain ⟨p, hp⟩ := Option.isSome_iff_exists.1 (s2 _ q1 q2)
      obtain ⟨p1, p2, p3⟩ := s1 _ _ hp
      obtain ⟨h, hh, rfl⟩ := h1 p p1 p3
      exact ⟨h, List.mem_filter.2 ⟨hh, by simp [p2]⟩, hp⟩)
  have hvar : combo.map (fun h => h.path.var) = (group (fun (h : Hit S G K V D) => h.path.var) hs).map Prod.fst := by
    clear h1 h2 s1 s2 s3
    have hall : ∀ kl ∈ group (fun (h : Hit S G K V D) => h.path.var) hs, ∀ h ∈ kl.2, h.path.var = kl.1 := by
      rintro ⟨k, l⟩ hkl h hh
      rw [mem_group] at hkl
      rw [hkl.1, List.mem_filter, decide_eq_true_eq] at hh
      exact hh.2
    generalize group (fun (h : Hit S G K V D) => h.path.var) hs = g at hc hall
    induction hc with
    | nil => rfl
    | cons hr _ ih =>
      simp only [List.map_cons]
      rw [ih (fun kl hkl => hall kl (by simp [hkl])), hall _ (by simp) _ hr.1]
  refine ⟨combo, ?_, ?_, ?_, ?_⟩
  · rw [mem_product]
    clear hvar
    generalize group (fun (h : Hit S G K V D) => h.path.var) hs = g at hc
    induction hc with
    | nil => exact .nil
    | cons hr _ ih => exact .cons hr.1 ih
  · rw [hvar]; exact (group_get _ _).1
  · intro h hh
    obtain ⟨⟨k, l⟩, hkl, hl, hsel⟩ := forall₂_mem_left hc hh
    rw [mem_group] at hkl
    rw [hkl.1, List.mem_filter, decide_eq_true_eq] at hl
    obtain ⟨l1, l2⟩ := hl
    simp only at hsel
    exact ⟨l2 ▸ hsel, (h2 h l1).2.2⟩
  · intro v p hp
    obtain ⟨p1, p2, p3⟩ := s1 v p hp
    obtain ⟨h, hh, hhp⟩ := h1 p p1 p3
    have hkl : (v, hs.filter (fun h => decide (h.path.var = v))) ∈ group (fun (h : Hit S G K V D) => h.path.var) hs := by
      rw [mem_group]
      exact ⟨rfl, List.ne_nil_of_mem (List.mem_filter.2 ⟨hh, by simp [hhp, p2]⟩)⟩
    obtain ⟨h', h'1, h'2, h'3⟩ := forall₂_mem_right hc hkl
    refine ⟨h', h'1, ?_⟩
    simp only at h'3
    rw [hp] at h'3
    exact (Option.some.inj h'3).symm

theorem checkSample_spec {w : World S K V} {b : Body S G K V D} (hn : (b.agents.map Prod.fst).Nodup) {tr : Trace K} {i : Nat}
    {prep : Dict String (List (Prepared S G K V D))} (hp : prepare w b tr = .ok prep)
    {s : Sample S G K V D} (h : checkSample w b prep tr i = .ok s) :
    SampleSpec w b tr i (b.agents.filter (fun a => decide (a.2.nargs ≠ 0))) s := by
  obtain ⟨sd0, hb0, hprep⟩ := prepare_spec hn hp
  unfold checkSample at h
  obtain ⟨sd, hsd, h⟩ := (bind_ok_iff _ _ _).1 h
  rw [stateDict_ok_iff] at hsd
  have hnd : ((b.agents.filter (fun a => decide (a.2.nargs ≠ 0))).map Prod.fst).Nodup :=
    hn.sublist (List.Sublist.map _ List.filter_sublist)
  have hctl : ∀ x ∈ b.agents.filter (fun a => decide (a.2.nargs ≠ 0)), Controlled b x.1 x.2 := by
    intro x hx
    rw [List.mem_filter] at hx
    exact ⟨hx.1, by simpa using hx.2⟩
  generalize b.agents.filter (fun a => decide (a.2.nargs ≠ 0)) = as at h hnd hctl ⊢
  have huniq : ∀ a dl dl', Controlled b a dl → Controlled b a dl' → dl = dl' := by
    intro a dl dl' h1 h2
    have e1 := Dict.get?_of_mem hn h1.1
    have e2 := Dict.get?_of_mem hn h2.1
    rw [e1] at e2
    exact Option.some.inj e2
  refine foldlM_inv_pre (fun pre s => (pre.map Prod.fst).Nodup → SampleSpec w b tr i pre s) h (fun _ => ⟨by simp, by simp, by simp, by simp, by simp, by simp, by simp⟩) ?_ hnd
  intro pre x acc acc' hxmem hinv hstep hnd'
  have hx := hctl x hxmem
  rw [List.map_append, List.nodup_append] at hnd'
  replace hinv := hinv hnd'.1
  have hxpre : ∀ dl, (x.1, dl) ∉ pre := by
    intro dl hdl
    exact hnd'.2.2 x.1 (List.mem_map.2 ⟨_, hdl, rfl⟩) x.1 (by simp) rfl
  unfold checkAgent at hstep
  obtain ⟨fs, hfs, hstep⟩ := (bind_ok_iff _ _ _).1 hstep
  have hfspec := failing_spec _ _ _ hfs
  have hfa : ∀ y, y ∈ x.2.asserts → (FailsAt w b tr i x.1 y ↔
      y.pre (w.sense x.1 sd) = .ok (true, true) ∧ ∃ q, y.cond (w.sense x.1 sd) = .ok q ∧ q ≠ (true, true)) := by
    intro y hy
    constructor
    · rintro ⟨dl, sd', c1, c2, c3, c4⟩
      rw [boxes_det c3 hsd] at c4
      exact c4
    · intro c
      exact ⟨x.2, sd, hx, hy, hsd, c⟩
  obtain ⟨l, hl1, hl2⟩ := hprep x.1 x.2 hx
  obtain ⟨pp1, pp2⟩ := preparePaths_spec _ _ _ hl2
  have heval : ∀ a dl y sd', (a, dl) ∈ pre ++ [x] → y ∈ dl.asserts → Boxes b tr i sd' → (∃ r, y.pre (w.sense a sd') = .ok r) ∧
      (y.pre (w.sense a sd') = .ok (true, true) → ∃ q, y.cond (w.sense a sd') = .ok q) := by
    intro a dl y sd' hadl hy hsd'
    rcases List.mem_append.1 hadl with hadl | hadl
    · exact hinv.evaluated a dl y sd' hadl hy hsd'
    · simp only [List.mem_singleton] at hadl
      have e : dl = x.2 := by rw [← hadl]
      have e' : a = x.1 := by rw [← hadl]
      subst e; subst e'
      rw [boxes_det hsd' hsd]
      exact failing_evaluated _ _ _ hfs y hy
  by_cases hne : fs ≠ []
  · rw [if_pos hne] at hstep
    cases hstep
    have habs : Dict.set acc.asserts x.1 fs ≠ [] := Dict.set_ne_nil _ _ _
    refine ⟨?_, ?_, fun h => absurd h habs, fun h => absurd h habs, fun h => absurd h habs, fun h => absurd h habs, heval⟩
    · intro a lab
      simp only [Dict.get?_set]
      by_cases ha : x.1 = a
      · subst ha
        simp only [if_true, Option.some.injEq, exists_eq_left']
        rw [hfspec]
        constructor
        · rintro ⟨y, y1, y2, y3⟩
          exact ⟨x.2, y, by simp, y2, y1, (hfa y y1).2 y3⟩
        · rintro ⟨dl, y, d1, d2, d3, d4⟩
          rcases List.mem_append.1 d1 with d1 | d1
          · exact absurd d1 (hxpre dl)
          · simp only [List.mem_singleton] at d1
            have e : dl = x.2 := by rw [← d1]
            subst e
            exact ⟨y, d3, d2, (hfa y d3).1 d4⟩
      · rw [if_neg ha, hinv.fails]
        constructor
        · rintro ⟨dl, y, d1, d2⟩
          exact ⟨dl, y, by simp [d1], d2⟩
        · rintro ⟨dl, y, d1, d2⟩
          rcases List.mem_append.1 d1 with d1 | d1
          · exact ⟨dl, y, d1, d2⟩
          · simp only [List.mem_singleton] at d1
            subst d1
            exact absurd rfl ha
    · intro a ls
      rw [Dict.get?_set]
      by_cases ha : x.1 = a
      · rw [if_pos ha]; intro e; cases e; exact hne
      · rw [if_neg ha]; exact hinv.nonempty a ls
  · rw [if_neg hne] at hstep
    push Not at hne
    subst hne
    obtain ⟨r, hr, rfl⟩ := (map_ok_iff _ _ _).1 hstep
    rw [hl1] at hr
    obtain ⟨hs, r1, r2, r3, r4⟩ := checkPaths_spec _ _ _ hr
    -- facts about this agent
    have hask : ∀ p q, Asked w b tr i x.1 p q ↔ ∃ y ∈ l, y.path = p ∧ y.path.check y.g (w.sense x.1 sd) = .ok q := by
      intro p q
      constructor
      · rintro ⟨dl, sd0', sd', g, c1, c2, c3, c4, c5, c6⟩
        cases huniq _ _ _ c1 hx
        cases boxes_det c3 hb0
        cases boxes_det c4 hsd
        rcases pp2 p c2 with c | ⟨g', c, c'⟩
        · rw [c] at c5; cases c5
        · rw [c] at c5; cases c5
          exact ⟨_, c', rfl, c6⟩
      · rintro ⟨y, y1, rfl, y3⟩
        obtain ⟨z1, z2, z3⟩ := pp1 y y1
        exact ⟨x.2, sd0, sd, y.g, hx, z1, hb0, hsd, z3, y3⟩
    have k1 : ∀ p ∈ x.2.paths, HitAt w b tr i x.1 p → ∃ h ∈ hs, h.path = p := by
      rintro p _ ⟨c, hc⟩
      obtain ⟨y, y1, rfl, y3⟩ := (hask p _).1 hc
      obtain ⟨q, q1, q2⟩ := r2 y y1
      rw [y3] at q1
      cases q1
      obtain ⟨h, hh, C, _, rfl⟩ := q2 rfl
      exact ⟨_, hh, rfl⟩
    have k2 : ∀ h ∈ hs, h.path ∈ x.2.paths ∧ HitAt w b tr i x.1 h.path ∧ ∃ sd0 sd g C, Boxes b tr 0 sd0 ∧ Boxes b tr i sd ∧
      h.path.prep (w.sense x.1 sd0) = .ok (some g) ∧ h.path.cont g (w.sense x.1 sd) = .ok C ∧
      h.item = ⟨h.path.var, h.path.val, h.path.disc (w.sense x.1 sd0), C⟩ := by
      intro h hh
      obtain ⟨y, y1, ⟨C, hC, rfl⟩, c, hc⟩ := r3 h hh
      obtain ⟨z1, z2, z3⟩ := pp1 y y1
      refine ⟨z1, ⟨c, (hask _ _).2 ⟨y, y1, rfl, hc⟩⟩, sd0, sd, y.g, C, hb0, hsd, z3, hC, ?_⟩
      rw [z2]
    have knil : (if r.1 = [] then acc.hits else acc.hits ++ (product (r.1.map Prod.snd)).map (fun c => (x.1, c))) =
        acc.hits ++ (if hs = [] then [] else (product ((group (fun (h : Hit S G K V D) => h.path.var) hs).map Prod.snd)).map (fun c => (x.1, c))) := by
      by_cases e : hs = []
      · rw [if_pos e, if_pos (by rw [r1, group_eq_nil]; exact e)]; simp
      · rw [if_neg e, if_neg (by rw [r1, group_eq_nil]; exact e), r1]
    refine ⟨?_, hinv.nonempty, fun h0 a dl hadl sel hsel => ?_, fun h0 => ?_, fun h0 => ?_, fun h0 a dl p hadl hp => ?_, heval⟩
    · intro a lab
      have := hinv.fails a lab
      simp only at this ⊢
      rw [this]
      constructor
      · rintro ⟨dl, y, d1, d2⟩
        exact ⟨dl, y, by simp [d1], d2⟩
      · rintro ⟨dl, y, d1, d2, d3, d4⟩
        rcases List.mem_append.1 d1 with d1 | d1
        · exact ⟨dl, y, d1, d2, d3, d4⟩
        · simp only [List.mem_singleton] at d1
          subst d1
          have := (hfspec lab).2 ⟨y, d3, d2, (hfa y d3).1 d4⟩
          cases this
    · rcases List.mem_append.1 hadl with hadl | hadl
      · obtain ⟨combo, c1, c2⟩ := hinv.hits h0 a dl hadl sel hsel
        refine ⟨combo, ?_, c2⟩
        rw [knil]
        exact List.mem_append_left _ c1
      · simp only [List.mem_singleton] at hadl
        subst hadl
        obtain ⟨combo, c1, c2⟩ := product_spec hs k1 k2 sel hsel
        refine ⟨combo, ?_, c2⟩
        rw [knil]
        apply List.mem_append_right
        rw [if_neg]
        · exact List.mem_map_of_mem c1
        · obtain ⟨v, hv⟩ := hsel.2.2
          obtain ⟨p, hp⟩ := Option.isSome_iff_exists.1 hv
          obtain ⟨p1, p2, p3⟩ := hsel.1 v p hp
          obtain ⟨h, hh, _⟩ := k1 p p1 p3
          exact List.ne_nil_of_mem hh
    · have := hinv.noHit h0
      simp only
      rw [knil]
      have hpn : hs ≠ [] → product ((group (fun (h : Hit S G K V D) => h.path.var) hs).map Prod.snd) ≠ [] := by
        intro _
        obtain ⟨c, hc⟩ := forall₂_choose (R := fun (h : Hit S G K V D) (l : List (Hit S G K V D)) => h ∈ l)
          ((group (fun (h : Hit S G K V D) => h.path.var) hs).map Prod.snd) (by
            intro l hl
            obtain ⟨⟨k, l'⟩, hkl, rfl⟩ := List.mem_map.1 hl
            rw [mem_group] at hkl
            exact List.exists_mem_of_ne_nil _ hkl.2)
        exact List.ne_nil_of_mem ((mem_product _ _).2 hc)
      constructor
      · intro hh
        by_cases e : hs = []
        · rw [if_pos e, List.append_nil] at hh
          obtain ⟨a, dl, p, c1, c2⟩ := this.1 hh
          exact ⟨a, dl, p, by simp [c1], c2⟩
        · obtain ⟨h, hh⟩ := List.exists_mem_of_ne_nil _ e
          exact ⟨x.1, x.2, h.path, by simp, (k2 h hh).2.1⟩
      · rintro ⟨a, dl, p, c1, c2⟩
        rcases List.mem_append.1 c1 with c1 | c1
        · intro e
          exact this.2 ⟨a, dl, p, c1, c2⟩ (List.append_eq_nil_iff.1 e).1
        · simp only [List.mem_singleton] at c1
          subst c1
          obtain ⟨c, c2⟩ := c2
          have c2' := c2
          obtain ⟨dl', _, _, _, d1, d2, _⟩ := c2'
          cases huniq _ _ _ d1 hx
          obtain ⟨h, hh, _⟩ := k1 p d2 ⟨c, c2⟩
          have e : hs ≠ [] := List.ne_nil_of_mem hh
          rw [if_neg e]
          intro e2
          have := (List.append_eq_nil_iff.1 e2).2
          rw [List.map_eq_nil_iff] at this
          exact hpn e this
    · have := hinv.contained h0
      simp only [Bool.or_eq_true]
      rw [this, r4]
      constructor
      · rintro (⟨a, dl, p, c1, c2⟩ | ⟨y, y1, q, y2⟩)
        · exact ⟨a, dl, p, by simp [c1], c2⟩
        · exact ⟨x.1, x.2, y.path, by simp, q, (hask _ _).2 ⟨y, y1, rfl, y2⟩⟩
      · rintro ⟨a, dl, p, c1, c2⟩
        rcases List.mem_append.1 c1 with c1 | c1
        · exact .inl ⟨a, dl, p, c1, c2⟩
        · simp only [List.mem_singleton] at c1
          subst c1
          obtain ⟨q, hq⟩ := c2
          obtain ⟨y, y1, _, y2⟩ := (hask _ _).1 hq
          exact .inr ⟨y, y1, q, y2⟩
    · rcases List.mem_append.1 hadl with hadl | hadl
      · exact hinv.asked h0 a dl p hadl hp
      · simp only [List.mem_singleton] at hadl
        have e : dl = x.2 := by rw [← hadl]
        have e' : a = x.1 := by rw [← hadl]
        subst e; subst e'
        rcases pp2 p hp with c | ⟨g, c, c'⟩
        · exact .inl ⟨sd0, hb0, c⟩
        · obtain ⟨q, q1, _⟩ := r2 _ c'
          exact .inr ⟨q, (hask _ _).2 ⟨_, c', rfl, q1⟩⟩

end Verif.Proofs.Ver
