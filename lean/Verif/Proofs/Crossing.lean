import Verif.Proofs.Execution2
import Verif.Spec.Crossing

/-!
Scenarios whose controllers only switch modes meet `NodeRest`, if their tubes cross guards as `Crossed` says.
-/

set_option autoImplicit false
set_option linter.unusedSectionVars false

namespace Verif.Proofs.Ver

open Verif.Ver Verif.Ver.Spec Verif.Rect.Spec Verif.Rst.Spec Verif.Spec

variable {S G K V D : Type}

/-- Two paths that do not lead to the same mode. -/
def Apart (p q : Path S G K V D) : Prop := ∀ y, Sets p y → ¬ Sets q y

theorem preparePaths_sublist (s0 : S) (ps : List (Path S G K V D)) (l : List (Prepared S G K V D)) (h : preparePaths s0 ps = .ok l) :
    (l.map Prepared.path).Sublist ps := by
  induction ps generalizing l with
  | nil => cases h; exact .slnil
  | cons p ps ih =>
    obtain ⟨o, h1, h2⟩ := (bind_ok_iff _ _ _).1 h
    cases o with
    | none => exact (ih l h2).cons _
    | some g =>
      obtain ⟨l', h3, rfl⟩ := (map_ok_iff _ _ _).1 h2
      exact (ih l' h3).cons_cons _

theorem checkPaths_sublist (s : S) (ps : List (Prepared S G K V D)) (r : Dict String (List (Hit S G K V D)) × Bool)
    (h : ps.foldlM (checkPath s) ([], false) = .ok r) :
    ∃ hs, r.1 = group (fun (h : Hit S G K V D) => h.path.var) hs ∧ (hs.map Hit.path).Sublist (ps.map Prepared.path) ∧
      ∀ h ∈ hs, ∃ x ∈ ps, x.path = h.path ∧ ∃ c, x.path.check x.g s = .ok (true, c) := by
  refine foldlM_inv_pre (fun (pre : List (Prepared S G K V D)) (r : Dict String (List (Hit S G K V D)) × Bool) =>
    ∃ hs, r.1 = group (fun (h : Hit S G K V D) => h.path.var) hs ∧ (hs.map Hit.path).Sublist (pre.map Prepared.path) ∧
      ∀ h ∈ hs, ∃ x ∈ pre, x.path = h.path ∧ ∃ c, x.path.check x.g s = .ok (true, c)) h ⟨[], rfl, by simp, by simp⟩ ?_
  intro pre x r r' _ hinv hstep
  obtain ⟨hs, e1, e2, e3⟩ := hinv
  unfold checkPath at hstep
  obtain ⟨q, hq, hstep⟩ := (bind_ok_iff _ _ _).1 hstep
  by_cases hb : q.1 = true
  · rw [if_pos hb] at hstep
    obtain ⟨C, hC, rfl⟩ := (map_ok_iff _ _ _).1 hstep
    refine ⟨hs ++ [⟨x.path, ⟨x.path.var, x.path.val, x.path.disc x.s0, C⟩⟩], ?_, ?_, ?_⟩
    · simp only [e1, group, List.foldl_append, List.foldl_cons, List.foldl_nil]
    · simp only [List.map_append, List.map_cons, List.map_nil]
      exact e2.append (List.Sublist.refl _)
    · intro z hz
      rcases List.mem_append.1 hz with hz | hz
      · obtain ⟨y, y1, y2⟩ := e3 z hz
        exact ⟨y, by simp [y1], y2⟩
      · simp only [List.mem_singleton] at hz
        subst hz
        exact ⟨x, by simp, rfl, q.2, by rw [hq, ← hb]⟩
  · rw [if_neg hb] at hstep
    cases hstep
    refine ⟨hs, e1, ?_, ?_⟩
    · simp only [List.map_append]
      exact e2.trans (List.sublist_append_left _ _)
    · intro z hz
      obtain ⟨y, y1, y2⟩ := e3 z hz
      exact ⟨y, by simp [y1], y2⟩

theorem group_const {α β : Type} [DecidableEq β] (key : α → β) (v : β) (l : List α) (h : ∀ x ∈ l, key x = v) (hne : l ≠ []) :
    group key l = [(v, l)] := by
  have hmore : ∀ (l acc : List α), (∀ x ∈ l, key x = v) →
      l.foldl (fun (d : Dict β (List α)) x => Dict.set d (key x) ((Dict.get? d (key x)).getD [] ++ [x])) [(v, acc)] = [(v, acc ++ l)] := by
    intro l
    induction l with
    | nil => intro acc _; simp
    | cons x l ih =>
      intro acc hl
      have hx : key x = v := hl x (by simp)
      simp only [List.foldl_cons, hx]
      have : Dict.set [(v, acc)] v ((Dict.get? [(v, acc)] v).getD [] ++ [x]) = [(v, acc ++ [x])] := by
        simp [Dict.set, Dict.get?]
      rw [this, ih _ (fun y hy => hl y (by simp [hy]))]
      simp
  cases l with
  | nil => exact absurd rfl hne
  | cons x l =>
    unfold group
    have hx : key x = v := h x (by simp)
    simp only [List.foldl_cons, hx]
    have : Dict.set ([] : Dict β (List α)) v ((Dict.get? ([] : Dict β (List α)) v).getD [] ++ [x]) = [(v, [x])] := by
      simp [Dict.set, Dict.get?]
    rw [this, hmore _ _ (fun y hy => h y (by simp [hy]))]
    simp

theorem product_one {α : Type} (l : List α) : product [l] = l.map (fun a => [a]) := by
  simp only [product, List.map_cons, List.map_nil]
  induction l with
  | nil => rfl
  | cons a l ih => simpa using ih

theorem product_cons_singletons {α : Type} (y : α) (l : List α) : product ([y] :: l.map (fun m => [m])) = [y :: l] := by
  have h : ∀ l : List α, product (l.map (fun m => [m])) = [l] := by
    intro l
    induction l with
    | nil => rfl
    | cons a l ih => simp [product, ih]
  simp [product, h]

theorem oneMode_var {dl : Logic S G K V D} (h : OneMode dl) {v : String} (hv : dl.disc = [v]) {p : Path S G K V D} (hp : p ∈ dl.paths) : p.var = v := by
  have := (h.paths p hp).1
  rw [hv] at this
  simpa using this

section
variable [Field K] [LinearOrder K]

/-- The combinations at a step: single hits, and those of the same agent lead to different modes. -/
theorem checkSample_apart {w : World S K V} {b : Body S G K V D} (hn : (b.agents.map Prod.fst).Nodup) {tr : Trace K} {i : Nat}
    {prep : Dict String (List (Prepared S G K V D))} (hp : prepare w b tr = .ok prep) (hone : ∀ a dl, Controlled b a dl → OneMode dl)
    (hap : ∀ a dl, Controlled b a dl → dl.paths.Pairwise (fun p q => HitAt w b tr i a p → HitAt w b tr i a q → Apart p q))
    {s : Sample S G K V D} (h : checkSample w b prep tr i = .ok s) :
    s.hits.Pairwise (fun x y => x.1 = y.1 → ∀ h ∈ x.2, ∀ h' ∈ y.2, Apart h.path h'.path) := by
  obtain ⟨sd0, hb0, hprep⟩ := prepare_spec hn hp
  unfold checkSample at h
  obtain ⟨sd, hsd, h⟩ := (bind_ok_iff _ _ _).1 h
  rw [stateDict_ok_iff] at hsd
  have hnd : ((b.agents.filter (fun a => decide (a.2.nargs ≠ 0))).map Prod.fst).Nodup :=
    hn.sublist (List.Sublist.map _ List.filter_sublist)
  have hctl : ∀ x ∈ b.agents.filter (fun a => decide (a.2.nargs ≠ 0)), Controlled b x.1 x.2 := fun x hx => mem_controlled.1 hx
  generalize b.agents.filter (fun a => decide (a.2.nargs ≠ 0)) = as at h hnd hctl
  have key := foldlM_inv_pre (fun (pre : List (String × Logic S G K V D)) (s : Sample S G K V D) => (pre.map Prod.fst).Nodup →
    s.hits.Pairwise (fun x y => x.1 = y.1 → ∀ h ∈ x.2, ∀ h' ∈ y.2, Apart h.path h'.path) ∧ ∀ x ∈ s.hits, x.1 ∈ pre.map Prod.fst) h (by simp) ?_
  · exact (key hnd).1
  intro pre x acc acc' hxmem hinv hstep hnd'
  have hx : Controlled b x.1 x.2 := hctl x hxmem
  rw [List.map_append, List.nodup_append] at hnd'
  obtain ⟨i1, i2⟩ := hinv hnd'.1
  unfold checkAgent at hstep
  obtain ⟨fs, hfs, hstep⟩ := (bind_ok_iff _ _ _).1 hstep
  have hpre : ∀ y ∈ acc.hits, y.1 ∈ (pre ++ [x]).map Prod.fst := by
    intro y hy
    rw [List.map_append]
    exact List.mem_append_left _ (i2 y hy)
  by_cases hne : fs ≠ []
  · rw [if_pos hne] at hstep
    cases hstep
    exact ⟨i1, hpre⟩
  · rw [if_neg hne] at hstep
    obtain ⟨r, hr, rfl⟩ := (map_ok_iff _ _ _).1 hstep
    obtain ⟨l, hl1, hl2⟩ := hprep x.1 x.2 hx
    obtain ⟨pp1, -⟩ := preparePaths_spec _ _ _ hl2
    rw [hl1] at hr
    obtain ⟨hs, r1, r2, r3⟩ := checkPaths_sublist _ _ _ hr
    by_cases e : r.1 = []
    · simp only [if_pos e]
      exact ⟨i1, hpre⟩
    · simp only [if_neg e]
      have hne' : hs ≠ [] := by
        rintro rfl
        exact e (by rw [r1]; rfl)
      obtain ⟨v, hv⟩ := (hone _ _ hx).disc
      have hmem : ∀ h ∈ hs, h.path ∈ x.2.paths ∧ HitAt w b tr i x.1 h.path := by
        intro h hh
        obtain ⟨y, y1, y2, c, hc⟩ := r3 h hh
        obtain ⟨z1, z2, z3⟩ := pp1 y y1
        rw [← y2]
        exact ⟨z1, c, x.2, sd0, sd, y.g, hx, z1, hb0, hsd, z3, hc⟩
      have hg : r.1 = [(v, hs)] := by
        rw [r1]
        exact group_const _ v hs (fun h hh => oneMode_var (hone _ _ hx) hv (hmem h hh).1) hne'
      rw [hg]
      simp only [List.map_cons, List.map_nil, product_one, List.map_map]
      have hpair : (hs.map Hit.path).Pairwise (fun p q => HitAt w b tr i x.1 p → HitAt w b tr i x.1 q → Apart p q) :=
        ((hap _ _ hx).sublist (preparePaths_sublist _ _ _ hl2)).sublist r2
      rw [List.pairwise_map] at hpair
      refine ⟨?_, ?_⟩
      · rw [List.pairwise_append]
        refine ⟨i1, ?_, ?_⟩
        · rw [List.pairwise_map]
          refine hpair.imp_of_mem ?_
          intro h h' hh hh' hR _ z hz z' hz'
          simp only [Function.comp, List.mem_singleton] at hz hz'
          subst hz hz'
          exact hR (hmem _ hh).2 (hmem _ hh').2
        · intro y hy z hz e'
          obtain ⟨h, _, rfl⟩ := List.mem_map.1 hz
          simp only [Function.comp] at e'
          exact absurd e' (hnd'.2.2 _ (i2 y hy) _ (by simp))
      · intro y hy
        rcases List.mem_append.1 hy with hy | hy
        · exact hpre y hy
        · obtain ⟨h, _, rfl⟩ := List.mem_map.1 hy
          simp [Function.comp]

/-- The steps before one that is recorded do not end the scan. -/
theorem scan_reached {w : World S K V} {b : Body S G K V D} (hn : (b.agents.map Prod.fst).Nodup)
    {prep : Dict String (List (Prepared S G K V D))} {tr : Trace K} (hp : prepare w b tr = .ok prep)
    (left i : Nat) (acc l : List (Sample S G K V D × Nat)) (h : scan w b prep tr left i acc = .ok (.hits l)) :
    ∃ t, l = acc ++ t ∧ ∀ x ∈ t, (∀ j a p, i ≤ j → j < x.2 → ¬ ContainedAt w b tr j a p) ∧
      ∀ k, i ≤ k → k < x.2 → (acc ≠ [] ∨ ∃ j a p, i ≤ j ∧ j < k ∧ HitAt w b tr j a p) → ∃ a p, HitAt w b tr k a p := by
  induction left generalizing i acc with
  | zero => cases h; exact ⟨[], by simp⟩
  | succ left ih =>
    unfold scan at h
    obtain ⟨s, hs, h⟩ := (bind_ok_iff _ _ _).1 h
    have hspec := checkSample_spec hn hp hs
    by_cases ha : s.asserts ≠ []
    · rw [if_pos ha] at h; cases h
    · rw [if_neg ha] at h
      push Not at ha
      have hhit : s.hits ≠ [] ↔ ∃ a p, HitAt w b tr i a p := by
        rw [hspec.noHit ha]
        constructor
        · rintro ⟨a, dl, p, _, c⟩; exact ⟨a, p, c⟩
        · rintro ⟨a, p, c⟩
          have c' := c
          obtain ⟨_, dl, _, _, _, d, _⟩ := c'
          exact ⟨a, dl, p, mem_controlled.2 d, c⟩
      have hcon : ¬ s.contained = true → ∀ a p, ¬ ContainedAt w b tr i a p := by
        intro hc a p c
        have c' := c
        obtain ⟨_, dl, _, _, _, d, _⟩ := c'
        exact hc ((hspec.contained ha).2 ⟨a, dl, p, mem_controlled.2 d, c⟩)
      by_cases he : s.hits.isEmpty = true
      · rw [if_pos he] at h
        have he' : ¬ ∃ a p, HitAt w b tr i a p := fun e => (hhit.2 e) (List.isEmpty_iff.1 he)
        by_cases hb : (!acc.isEmpty || s.contained) = true
        · rw [if_pos hb] at h; cases h; exact ⟨[], by simp⟩
        · rw [if_neg hb] at h
          have hacc : acc = [] := by
            by_contra hne
            exact hb (by simp [hne])
          have hnc : ¬ s.contained = true := fun e => hb (by simp [e])
          obtain ⟨t, t1, t2⟩ := ih _ _ h
          refine ⟨t, t1, fun x hx => ⟨fun j a p j1 j2 => ?_, fun k k1 k2 hk => ?_⟩⟩
          · by_cases e : j = i
            · subst e; exact hcon hnc a p
            · exact (t2 x hx).1 j a p (by omega) j2
          · rcases hk with hk | ⟨j, a, p, j1, j2, j3⟩
            · exact absurd hacc hk
            · have hji : j ≠ i := by rintro rfl; exact he' ⟨a, p, j3⟩
              exact (t2 x hx).2 k (by omega) k2 (.inr ⟨j, a, p, by omega, j2, j3⟩)
      · rw [if_neg he] at h
        have he' : ∃ a p, HitAt w b tr i a p := hhit.1 (fun e => he (by rw [e]; rfl))
        by_cases hb : s.contained = true
        · rw [if_pos hb] at h; cases h
          refine ⟨[(s, i)], rfl, fun x hx => ?_⟩
          simp only [List.mem_singleton] at hx
          subst hx
          exact ⟨fun j a p j1 j2 => absurd j2 (by simp only; omega), fun k k1 k2 => absurd k2 (by simp only; omega)⟩
        · rw [if_neg hb] at h
          obtain ⟨t, t1, t2⟩ := ih _ _ h
          refine ⟨(s, i) :: t, by simp [t1], fun x hx => ?_⟩
          rcases List.mem_cons.1 hx with rfl | hx
          · exact ⟨fun j a p j1 j2 => absurd j2 (by simp only; omega), fun k k1 k2 => absurd k2 (by simp only; omega)⟩
          · refine ⟨fun j a p j1 j2 => ?_, fun k k1 k2 hk => ?_⟩
            · by_cases e : j = i
              · subst e; exact hcon hb a p
              · exact (t2 x hx).1 j a p (by omega) j2
            · by_cases e : k = i
              · subst e; exact he'
              · exact (t2 x hx).2 k (by omega) k2 (.inl (by simp))

/-- A reset of the mode: there is one destination. -/
theorem applyReset_mode {sh : K → Rst.Text} {rd : Rst.Text → Option K} {contVars : List String} {v : String} {mode : List V} {rect : Rect.Box K}
    {it : Rst.Item K V D} {dests : List (List V)} {rect' : Rect.Box K} {y : V} (hv : it.var = v) (hm : Sim.hasMode v = true)
    (hy : it.val = .const y ∨ it.val = .member true y)
    (h : Rst.applyReset sh rd contVars [v] mode rect [it] = .ok (dests, rect')) : ∃ m ms, mode = m :: ms ∧ dests = [y :: ms] := by
  unfold Rst.applyReset at h
  obtain ⟨r, hr, he⟩ := (map_ok_iff _ _ _).1 h
  obtain ⟨r', hr', hr⟩ := (foldlM_cons_ok _ _ _ _ _).1 hr
  simp only [List.foldlM_nil] at hr
  cases hr
  unfold Rst.applyOne at hr'
  have hidx : Sim.indexOf? [v] v = some 0 := by simp [Sim.indexOf?]
  rw [hv, if_pos hm, hidx] at hr'
  simp only at hr'
  cases mode with
  | nil => simp at hr'
  | cons m ms =>
    simp only [List.map_cons, List.getElem?_cons_zero, List.set_cons_zero] at hr'
    have hd : Rst.destOf [m] it.val it.disc = [y] := by
      rcases hy with e | e <;> rw [e] <;> simp [Rst.destOf]
    rw [hd] at hr'
    cases hr'
    simp only [product_cons_singletons, Prod.mk.injEq] at he
    exact ⟨m, ms, rfl, he.1.symm⟩

/-- A combination of hits of a controller with one mode variable is a single hit. -/
theorem combo_one {w : World S K V} {b : Body S G K V D} {tr : Trace K} {i : Nat} {a : String} {dl : Logic S G K V D}
    {sel : String → Option (Path S G K V D)} {combo : List (Hit S G K V D)} (hone : OneMode dl) {v : String} (hv : dl.disc = [v])
    (hsel : Selects w b tr i a dl sel) (hc : Combo w b tr i a sel combo) :
    ∃ h, combo = [h] ∧ h.path ∈ dl.paths ∧ HitAt w b tr i a h.path ∧ sel v = some h.path ∧ h.item.var = v ∧ h.item.val = h.path.val := by
  obtain ⟨c1, c2, c3⟩ := hc
  obtain ⟨s1, s2, u, hu⟩ := hsel
  obtain ⟨p, hp⟩ := Option.isSome_iff_exists.1 hu
  obtain ⟨h0, hh0, -⟩ := c3 u p hp
  have hvar : ∀ h ∈ combo, h.path.var = v := fun h hh => oneMode_var hone hv (s1 _ _ (c2 h hh).1).1
  have : combo = [h0] := by
    cases combo with
    | nil => cases hh0
    | cons x rest =>
      cases rest with
      | nil => simp only [List.mem_singleton] at hh0; rw [hh0]
      | cons y rest =>
        exfalso
        rw [List.map_cons, List.map_cons, List.nodup_cons] at c1
        exact c1.1 (by rw [hvar x (by simp), hvar y (by simp)]; simp)
  obtain ⟨q1, sd0, sd, g, C, _, _, _, _, q2⟩ := c2 h0 hh0
  obtain ⟨z1, z2, z3⟩ := s1 _ _ q1
  refine ⟨h0, this, z1, z3, ?_, ?_, ?_⟩
  · rw [← hvar h0 hh0]; exact q1
  · rw [q2]; exact hvar h0 hh0
  · rw [q2]

end

/-- A strictly increasing list without gaps. -/
theorem consecutive {l : List Nat} {i0 : Nat} (hs : l.Pairwise (· < ·)) (hh : l.head? = some i0)
    (hg : ∀ i ∈ l, ∀ j, i0 ≤ j → j ≤ i → j ∈ l) : ∀ (k i : Nat), l[k]? = some i → i = i0 + k := by
  have hmono : ∀ (k m i j : Nat), l[k]? = some i → l[m]? = some j → k < m → i < j := by
    intro k m i j hi hj hkm
    obtain ⟨hk, rfl⟩ := List.getElem?_eq_some_iff.1 hi
    obtain ⟨hm, rfl⟩ := List.getElem?_eq_some_iff.1 hj
    exact List.pairwise_iff_getElem.1 hs k m hk hm hkm
  intro k
  induction k with
  | zero =>
    intro i hi
    rw [List.head?_eq_getElem?] at hh
    rw [hh] at hi
    cases hi
    rfl
  | succ k ih =>
    intro i hi
    obtain ⟨hk, _⟩ := List.getElem?_eq_some_iff.1 hi
    have hk' : l[k]? = some (l[k]'(by omega)) := List.getElem?_eq_getElem _
    have e := ih _ hk'
    have hlt := hmono k (k + 1) _ _ hk' hi (by omega)
    have hmem : i0 + k + 1 ∈ l := hg i (List.mem_of_getElem? hi) _ (by omega) (by omega)
    obtain ⟨m, hm⟩ := List.getElem?_of_mem hmem
    rcases Nat.lt_trichotomy m (k + 1) with h | h | h
    · by_cases hmk : m = k
      · subst hmk
        rw [hk'] at hm
        have := Option.some.inj hm
        omega
      · have := hmono m k _ _ hm hk' (by omega)
        omega
    · subst h
      rw [hi] at hm
      have := Option.some.inj hm
      omega
    · have := hmono (k + 1) m _ _ hi hm h
      omega

section
variable [Field K] [LinearOrder K]

/-- The entries of one step: those of the same agent have different destinations. -/
theorem events_apart {w : World S K V} {b : Body S G K V D} {tr : Trace K} (wf : Body.WF b) {prep : Dict String (List (Prepared S G K V D))}
    (hp : prepare w b tr = .ok prep) (hone : ∀ a dl, Controlled b a dl → OneMode dl)
    (hap : ∀ i a dl, Controlled b a dl → dl.paths.Pairwise (fun p q => HitAt w b tr i a p → HitAt w b tr i a q → Apart p q))
    {l : List (Sample S G K V D × Nat)} {evs : List (Event S G K V D)} (h : events w b tr l = .ok evs)
    (hl : (l.map Prod.snd).Pairwise (· < ·)) (hls : ∀ x ∈ l, checkSample w b prep tr x.2 = .ok x.1) :
    evs.Pairwise (fun x y => x.idx < y.idx ∨ (x.agent = y.agent → x.dest ≠ y.dest)) := by
  obtain ⟨ess, h1, rfl⟩ := (map_ok_iff _ _ _).1 h
  rw [mapM_ok_iff] at h1
  -- entries have the step of their sample
  have hidx : ∀ (s : Sample S G K V D × Nat) (es : List (Event S G K V D)),
      (s.1.hits.mapM (eventsOf w b tr s.2)).map List.flatten = .ok es → ∀ e ∈ es, e.idx = s.2 := by
    intro s es hs e he
    obtain ⟨zs, h3, rfl⟩ := (map_ok_iff _ _ _).1 hs
    rw [mapM_ok_iff] at h3
    obtain ⟨z, hz, he⟩ := List.mem_flatten.1 he
    obtain ⟨x, _, hx⟩ := forall₂_mem_right h3 hz
    exact eventsOf_idx hx e he
  -- one step
  have hstep : ∀ s ∈ l, ∀ es, (s.1.hits.mapM (eventsOf w b tr s.2)).map List.flatten = .ok es →
      es.Pairwise (fun x y => x.agent = y.agent → x.dest ≠ y.dest) := by
    intro s hs es hes
    obtain ⟨zs, h3, rfl⟩ := (map_ok_iff _ _ _).1 hes
    rw [mapM_ok_iff] at h3
    have hpair := checkSample_apart wf.names hp hone (hap s.2) (hls s hs)
    have hsound := checkSample_sound wf.names hp (hls s hs)
    -- the entries of one hit
    have hone' : ∀ x ∈ s.1.hits, ∀ z, eventsOf w b tr s.2 x = .ok z → ∃ e h y m ms, z = [e] ∧ e.agent = x.1 ∧ x.2 = [h] ∧ Sets h.path y ∧
        Dict.get? b.mode x.1 = some (m :: ms) ∧ e.dest = some (y :: ms) := by
      intro x hx z hz
      obtain ⟨dl, sel, z1, z2, z3⟩ := hsound x.1 x.2 hx
      obtain ⟨v, hv⟩ := (hone _ _ z1).disc
      obtain ⟨h, k1, k2, k3, k4, k5, k6⟩ := combo_one (hone _ _ z1) hv z2 z3
      obtain ⟨y, hy⟩ := ((hone _ _ z1).paths _ k2).2
      unfold eventsOf at hz
      rw [Dict.get?_of_mem wf.names z1.1] at hz
      split at hz
      · rename_i dl0 segs m e0 e1 e2
        cases e0
        split at hz
        · rename_i seg e3
          obtain ⟨⟨dests, rect⟩, hreset, rfl⟩ := (map_ok_iff _ _ _).1 hz
          rw [k1, hv] at hreset
          have hmode : Sim.hasMode v = true := (wf.logics _ z1.1).discMode v (by rw [hv]; simp)
          obtain ⟨m0, ms, rfl, rfl⟩ := applyReset_mode k5 hmode (by rw [k6]; exact hy) hreset
          exact ⟨_, h, y, m0, ms, rfl, rfl, k1, hy, e2, rfl⟩
        · cases hz
      · cases hz
    clear hes hs
    generalize s.1.hits = hits at h3 hpair hone'
    induction h3 with
    | nil => simp
    | @cons x z xs zs hxz hrest ih =>
      rw [List.pairwise_cons] at hpair
      rw [List.flatten_cons, List.pairwise_append]
      obtain ⟨e, h, y, m, ms, rfl, ea, ex, ey, em, ed⟩ := hone' x (by simp) z hxz
      refine ⟨by simp, ih hpair.2 (fun x' hx' => hone' x' (by simp [hx'])), ?_⟩
      intro e1 he1 e2 he2 hag
      simp only [List.mem_singleton] at he1
      subst he1
      obtain ⟨z', hz', he2⟩ := List.mem_flatten.1 he2
      obtain ⟨x', hx', hxz'⟩ := forall₂_mem_right hrest hz'
      obtain ⟨e', h', y', m', ms', rfl, ea', ex', ey', em', ed'⟩ := hone' x' (by simp [hx']) z' hxz'
      simp only [List.mem_singleton] at he2
      subst he2
      have hagent : x.1 = x'.1 := by rw [← ea, ← ea']; exact hag
      have hA := hpair.1 x' hx' hagent h (by rw [ex]; simp) h' (by rw [ex']; simp)
      intro hd
      rw [ed, ed'] at hd
      have hyy : y = y' := by
        have := Option.some.inj hd
        exact (List.cons.inj this).1
      subst hyy
      exact hA y ey ey'
  clear h
  induction h1 with
  | nil => simp
  | @cons s es l ess hr hrest ih =>
    simp only [List.map_cons, List.pairwise_cons] at hl
    rw [List.flatten_cons, List.pairwise_append]
    refine ⟨(hstep s (by simp) es hr).imp (fun h => .inr h), ih hl.2 (fun x hx => hls x (by simp [hx])) (fun x hx => hstep x (by simp [hx])), ?_⟩
    intro x hx y hy
    left
    obtain ⟨es', hes', hy⟩ := List.mem_flatten.1 hy
    obtain ⟨s', hs', hr'⟩ := forall₂_mem_right hrest hes'
    rw [hidx s es hr x hx, hidx s' es' hr' y hy]
    exact hl.1 _ (List.mem_map.2 ⟨s', hs', rfl⟩)

variable [DecidableEq V]

theorem crossed_aligned {w : World S K V} {n : Engine.Work (Body S G K V D) (Trace K)} {tr : Trace K} (wf : Body.WF n.body)
    (hone : ∀ a dl, Controlled n.body a dl → OneMode dl) (hc : Crossed w n tr) (ts : List (Trans S G K V D))
    (hfound : getTransitions w n.body tr = .ok (.trans ts)) : ∀ t ∈ ts, ∀ (k i : Nat), t.idxs[k]? = some i →
    ∃ i0, t.idxs.head? = some i0 ∧ i = i0 + k := by
  unfold getTransitions at hfound
  obtain ⟨prep, hprep, hfound⟩ := (bind_ok_iff _ _ _).1 hfound
  obtain ⟨N, hN, hfound⟩ := (bind_ok_iff _ _ _).1 hfound
  obtain ⟨sc, hsc, hfound⟩ := (bind_ok_iff _ _ _).1 hfound
  cases sc with
  | asserts d idx => cases hfound
  | hits l =>
    dsimp only at hfound
    obtain ⟨evs, hevs, hfound⟩ := (bind_ok_iff _ _ _).1 hfound
    obtain ⟨ts', hts, hts'⟩ := (map_ok_iff _ _ _).1 hfound
    cases hts'
    obtain ⟨l', hl', hsorted, hlspec⟩ := scan_hits _ _ _ _ hsc
    simp only [List.nil_append] at hl'
    subst hl'
    obtain ⟨l', hl', hreached⟩ := scan_reached wf.names hprep _ _ _ _ hsc
    simp only [List.nil_append] at hl'
    subst hl'
    obtain ⟨hev1, -⟩ := events_sorted hevs hsorted
    have hap := events_apart wf hprep hone hc.apart hevs hsorted (fun x hx => (hlspec x hx).2.2.1)
    -- what is known of an entry
    have hjust : ∀ e ∈ evs, ∃ dl v h y m ms, Controlled n.body e.agent dl ∧ dl.disc = [v] ∧ e.combo = [h] ∧ h.path ∈ dl.paths ∧
        HitAt w n.body tr e.idx e.agent h.path ∧ Sets h.path y ∧ Dict.get? n.body.mode e.agent = some (m :: ms) ∧ e.dest = some (y :: ms) ∧
        e.idx < N ∧ ∀ j a p, j < e.idx → ¬ ContainedAt w n.body tr j a p := by
      intro e he
      obtain ⟨s, dl, segs, m, seg, dests, q1, q2, q3, q4, q5, q6, q7, q8⟩ := events_sound hevs e he
      obtain ⟨_, r0, r1, _⟩ := hlspec _ q1
      obtain ⟨dl', sel, z1, z2, z3⟩ := checkSample_sound wf.names hprep r1 _ _ q2
      have e' := Dict.get?_of_mem wf.names z1.1
      rw [q3] at e'
      cases e'
      obtain ⟨v, hv⟩ := (hone _ _ z1).disc
      obtain ⟨h, k1, k2, k3, k4, k5, k6⟩ := combo_one (hone _ _ z1) hv z2 z3
      obtain ⟨y, hy⟩ := ((hone _ _ z1).paths _ k2).2
      have hmode : Sim.hasMode v = true := (wf.logics _ z1.1).discMode v (by rw [hv]; simp)
      rw [k1, hv] at q7
      obtain ⟨m0, ms, rfl, rfl⟩ := applyReset_mode k5 hmode (by rw [k6]; exact hy) q7
      refine ⟨dl, v, h, y, m0, ms, z1, hv, k1, k2, k3, hy, q5, ?_, by simpa using r0, fun j a p hj => (hreached _ q1).1 j a p (Nat.zero_le _) hj⟩
      rcases q8 with ⟨_, q8⟩ | ⟨d, hd, q8⟩
      · cases q8
      · simp only [List.mem_singleton] at hd
        rw [q8, hd]
    intro t ht k i hk
    have htg : t ∈ grouped evs := ((mem_permitted _ _ hts t).1 ht).1
    obtain ⟨e, rest, len, g1, g2, g3, g4⟩ := grouped_sound evs t htg
    have hmem : ∀ x ∈ e :: rest, x ∈ evs ∧ x.agent = t.agent ∧ x.combo.length = len ∧ x.dest = t.dest := by
      intro x hx
      rw [g1, List.mem_filter] at hx
      simpa [and_assoc] using hx
    have hin : ∀ x ∈ evs, x.agent = t.agent → x.combo.length = len → x.dest = t.dest → x ∈ e :: rest := by
      intro x hx h1 h2 h3
      rw [g1, List.mem_filter]
      simp [hx, h1, h2, h3]
    refine ⟨e.idx, by rw [g3]; rfl, ?_⟩
    have hinc : t.idxs.Pairwise (· < ·) := by
      rw [g3, List.pairwise_map]
      have hf : (e :: rest).Pairwise (fun x y => x.idx < y.idx ∨ (x.agent = y.agent → x.dest ≠ y.dest)) := by
        rw [g1]
        exact hap.sublist List.filter_sublist
      refine hf.imp_of_mem ?_
      intro x y hx hy hxy
      rcases hxy with h | h
      · exact h
      · exact absurd ((hmem x hx).2.2.2.trans (hmem y hy).2.2.2.symm) (h ((hmem x hx).2.1.trans (hmem y hy).2.1.symm))
    refine consecutive hinc (by rw [g3]; rfl) ?_ k i hk
    intro i' hi' j hj1 hj2
    rw [g3] at hi'
    obtain ⟨x, hx, rfl⟩ := List.mem_map.1 hi'
    obtain ⟨hxe, hxa, hxl, hxd⟩ := hmem x hx
    obtain ⟨hee, hea, hel, hed⟩ := hmem e (by simp)
    obtain ⟨dl, v, h, y, m, ms, a1, a2, a3, a4, a5, a6, a7, a8, a9, a10⟩ := hjust e hee
    obtain ⟨-, -, -, -, -, -, -, -, -, -, -, -, -, -, b9, b10⟩ := hjust x hxe
    -- the same path is hit at step j
    have hjN : j < N := by omega
    have hstepj : HasStep tr j := (traceLength_spec _ _ hN j).1 hjN
    have hhit : HitAt w n.body tr j e.agent h.path := by
      by_cases e0 : e.idx = j
      · rw [← e0]; exact a5
      · exact hc.onward e.idx j e.agent h.path (by omega) a5 (fun i a' p' hi => b10 i a' p' (by omega)) hstepj
    rcases scan_reaches wf.names hprep _ _ _ _ hsc j (Nat.zero_le _) (by omega) (fun i' a p _ hi' => b10 i' a p (by omega))
      (fun k' _ hk' hh => by
        obtain ⟨s, dl', segs', m', seg', dests', q1, -⟩ := events_sound hevs x hxe
        refine (hreached _ q1).2 k' (Nat.zero_le _) (by simp only; omega) ?_
        rcases hh with hh | hh
        · exact absurd rfl hh
        · exact .inr hh) with ⟨_, _, _, _, _, _, e'⟩ | ⟨s, hs, has, hmem'⟩
    · cases e'
    have hsp := checkSample_spec wf.names hprep hs
    have hselects : Selects w n.body tr j e.agent dl (fun u => if u = v then some h.path else none) := by
      refine ⟨fun u p hp => ?_, fun p hp _ => ?_, v, by simp⟩
      · by_cases hu : u = v
        · simp only [hu, if_true, Option.some.injEq] at hp
          subst hp
          exact ⟨a4, by rw [hu]; exact oneMode_var (hone _ _ a1) a2 a4, hhit⟩
        · simp [hu] at hp
      · simp [oneMode_var (hone _ _ a1) a2 hp]
    obtain ⟨combo, hc1, hc2⟩ := hsp.hits has e.agent dl (mem_controlled.2 a1) _ hselects
    obtain ⟨es, he1, he2⟩ := mem_events hevs s j (hmem' (List.ne_nil_of_mem hc1) _ rfl) _ hc1
    obtain ⟨h2, k1, k2, k3, k4, k5, k6⟩ := combo_one (hone _ _ a1) a2 hselects hc2
    simp only [if_true, Option.some.injEq] at k4
    unfold eventsOf at he1
    rw [Dict.get?_of_mem wf.names a1.1] at he1
    dsimp only at he1
    split at he1
    · rename_i dl0 segs m' e0 e1 e2
      cases e0
      split at he1
      · rename_i seg e3
        obtain ⟨⟨dests, rect⟩, hreset, rfl⟩ := (map_ok_iff _ _ _).1 he1
        rw [k1, a2] at hreset
        have hmode : Sim.hasMode v = true := (wf.logics _ a1.1).discMode v (by rw [a2]; simp)
        obtain ⟨m0, ms0, rfl, rfl⟩ := applyReset_mode k5 hmode (by rw [k6, ← k4]; exact a6) hreset
        rw [a7] at e2
        cases e2
        have hev := he2 ⟨e.agent, some (y :: ms), rect, j, combo⟩ (by simp)
        have hfin := hin _ hev hea (by simp only [k1]; rw [← hel, a3]; rfl) (by simp only; rw [← hed, a8])
        rw [g3]
        exact List.mem_map.2 ⟨_, hfin, rfl⟩
      · cases he1
    · cases he1

/-- Controllers that only switch modes. -/
theorem nodeRest_of_crossed {M : Meaning S G K V D} {w : World S K V} {n : Engine.Work (Body S G K V D) (Trace K)} {tr : Trace K} (wf : Body.WF n.body)
    (hone : ∀ a dl, Controlled n.body a dl → OneMode dl) (hmap : ∀ m m', w.mapH none m m' = none) (hc : Crossed w n tr) : NodeRest M w n tr := by
  refine ⟨?_, ?_, hc.late, fun ts hts => crossed_aligned wf hone hc ts hts, ?_, ?_⟩
  · intro a dl p sd0 i sd g C hctl hp _ _ _ _
    obtain ⟨h1, y, hy⟩ := (hone _ _ hctl).paths p hp
    refine ⟨fun e he => ?_, fun _ => ⟨fun e he => ?_, fun v he => ?_⟩⟩
    · rcases hy with hy | hy <;> rw [hy] at he <;> cases he
    · rcases hy with hy | hy <;> rw [hy] at he <;> cases he
    · rcases hy with hy | hy <;> rw [hy] at he <;> cases he
  · intro j k a p hjk hh hcon hstep
    exact ⟨a, p, hc.onward j k a p hjk hh hcon hstep⟩
  · intro i a dl sel src dest hctl _ _ _
    have ht := (hone _ _ hctl).track
    exact ⟨src, none, dest, none, .all ht, .none ht, .all ht, .none ht, .inr (hmap _ _).symm⟩
  · intro i snap a dl dest post _ hsw p hp _
    obtain ⟨state, mode, static, hctl, _, _, _, ⟨choice, c1, c2, ⟨u, hu⟩, _⟩, _⟩ := hsw
    obtain ⟨p', hp'⟩ := Option.isSome_iff_exists.1 hu
    obtain ⟨d1, d2, d3⟩ := c1 u p' hp'
    obtain ⟨v, hv⟩ := (hone _ _ hctl).disc
    exact ⟨p', d1, (oneMode_var (hone _ _ hctl) hv d1).trans (oneMode_var (hone _ _ hctl) hv hp).symm, d3⟩

end

end Verif.Proofs.Ver
