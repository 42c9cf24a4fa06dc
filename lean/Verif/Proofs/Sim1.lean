import Verif.Spec.Sim
import Verif.Proofs.Basic

/-! `check_sim_transitions` against `Fires`. -/

set_option autoImplicit false

namespace Verif.Sim
open Verif.Spec

variable {Env V : Type}

theorem failedAsserts_eq (dl : Logic Env V) (env : Env) : failedAsserts dl env = failing dl env := by
  unfold failedAsserts failing
  congr 1
  apply List.filter_congr
  intro a _
  cases a.pre env <;> cases a.cond env <;> rfl

theorem indexOf?_eq_some {l : List String} (hn : l.Nodup) (s : String) (i : Nat) :
    indexOf? l s = some i ↔ l[i]? = some s := by
  unfold indexOf?
  constructor
  · intro h
    rw [List.findIdx?_eq_some_iff_getElem] at h
    obtain ⟨hi, h1, _⟩ := h
    simp only [decide_eq_true_eq] at h1
    rw [List.getElem?_eq_getElem hi, h1]
  · intro h
    rw [List.findIdx?_eq_some_iff_getElem]
    obtain ⟨hi, rfl⟩ := List.getElem?_eq_some_iff.1 h
    refine ⟨hi, by simp, ?_⟩
    intro j hj
    simp only [decide_eq_true_eq]
    intro e
    have := (List.Nodup.getElem_inj_iff hn).1 e
    omega

/-- the enabled paths that write `v` -/
def enabledFor (guards : List (Path Env V)) (env : Env) (v : String) : List (Path Env V) :=
  guards.filter (fun p => p.cond env && decide (p.var = v))

theorem allResets_spec (guards : List (Path Env V)) (env : Env) :
    ((allResets guards env).map Prod.fst).Nodup ∧
    ∀ v, Dict.get? (allResets guards env) v =
      if enabledFor guards env v = [] then none else some (enabledFor guards env v) := by
  unfold allResets
  refine foldl_inv_pre (P := fun pre (d : Dict String (List (Path Env V))) => (d.map Prod.fst).Nodup ∧
    ∀ v, Dict.get? d v = if enabledFor pre env v = [] then none else some (enabledFor pre env v)) guards [] ?_ ?_
  · simp [enabledFor]
  · rintro pre p d - ⟨h1, h2⟩
    have hf : ∀ v, enabledFor (pre ++ [p]) env v =
        enabledFor pre env v ++ (if p.cond env && decide (p.var = v) then [p] else []) := by
      intro v
      simp only [enabledFor, List.filter_append, List.filter_cons, List.filter_nil]
    cases hp : p.cond env with
    | false =>
      simp only [Bool.false_eq_true, if_false]
      refine ⟨h1, fun v => ?_⟩
      rw [hf, hp]
      simpa using h2 v
    | true =>
      simp only [if_true]
      refine ⟨Dict.nodup_set h1 _ _, fun v => ?_⟩
      rw [hf, hp, Dict.get?_set]
      by_cases hv : p.var = v
      · subst hv
        simp only [if_true, decide_true, Bool.and_self]
        rw [h2]
        by_cases he : enabledFor pre env p.var = [] <;> simp [he]
      · simp only [hv, if_false, decide_false, Bool.and_false, Bool.false_eq_true, List.append_nil]
        exact h2 v

theorem hasMode_iff (s : String) : hasMode s = true ↔ "mode".toList <:+: s.toList := by
  simp [hasMode]

theorem setAt_ok {α : Type} {l r : List α} {i : Nat} {v : α} (h : setAt l i v = .ok r) :
    i < l.length ∧ r = l.set i v := by
  unfold setAt at h
  split at h
  · cases h; exact ⟨by assumption, rfl⟩
  · cases h

/-- The effect of the loop over one choice. -/
theorem applyReset_fold {dl : Logic Env V} (wf : Logic.WF dl) (env : Env) (state mode : List V)
    {pos : List (String × Path Env V)} (hn : (pos.map Prod.fst).Nodup)
    {r : List (V × Option (Path Env V)) × List V}
    (h : pos.foldlM (applyReset dl env) (mode.map (fun v => (v, none)), state) = .ok r) :
    r.1.length = mode.length ∧ r.2.length = state.length ∧
    (∀ i : Nat, r.1[i]? = match dl.disc[i]?.bind (Dict.get? pos) with
      | some p => some (p.val env, some p)
      | none => (mode[i]?).map (fun m => (m, none))) ∧
    (∀ i : Nat, r.2[i]? = match dl.cont[i]?.bind (Dict.get? pos) with
      | some p => some (p.val env)
      | none => state[i]?) := by
  have key := foldlM_inv_pre
    (P := fun pre (r : List (V × Option (Path Env V)) × List V) => (pre.map Prod.fst).Nodup →
      r.1.length = mode.length ∧ r.2.length = state.length ∧
      (∀ i : Nat, r.1[i]? = match dl.disc[i]?.bind (Dict.get? pre) with
        | some p => some (p.val env, some p)
        | none => (mode[i]?).map (fun m => (m, none))) ∧
      (∀ i : Nat, r.2[i]? = match dl.cont[i]?.bind (Dict.get? pre) with
        | some p => some (p.val env)
        | none => state[i]?)) h ?_ ?_
  · exact key hn
  · intro _
    refine ⟨by simp, rfl, fun i => ?_, fun i => ?_⟩
    · simp only [List.getElem?_map]
      cases dl.disc[i]? <;> simp
    · cases dl.cont[i]? <;> simp
  · rintro pre ⟨v, p⟩ ⟨slots, next⟩ b' - ih hstep hnd
    rw [List.map_append, List.nodup_append] at hnd
    obtain ⟨hn1, -, hn2⟩ := hnd
    have hfresh : v ∉ pre.map Prod.fst := fun hv => hn2 v hv v (by simp) rfl
    obtain ⟨l1, l2, s1, s2⟩ := ih hn1
    have hget : ∀ u, Dict.get? (pre ++ [(v, p)]) u = if u = v then some p else Dict.get? pre u := by
      intro u
      unfold Dict.get?
      rw [List.find?_append]
      by_cases hu : u = v
      · subst hu
        have : List.find? (fun q : String × Path Env V => decide (q.1 = u)) pre = none := by
          rw [List.find?_eq_none]
          intro q hq hqe
          simp only [decide_eq_true_eq] at hqe
          exact hfresh (by rw [← hqe]; exact List.mem_map_of_mem hq)
        rw [this]; simp
      · have hu' : ¬ v = u := fun e => hu e.symm
        simp [hu, hu']
    unfold applyReset at hstep
    cases hm : hasMode v with
    | true =>
      simp only [hm, if_true] at hstep
      cases hi : indexOf? dl.disc v with
      | none => simp only [hi] at hstep; cases hstep
      | some k =>
        simp only [hi] at hstep
        obtain ⟨sl, hs, rfl⟩ := (map_ok_iff ..).1 hstep
        obtain ⟨hk, rfl⟩ := setAt_ok hs
        have hk' := (indexOf?_eq_some wf.discNodup v k).1 hi
        have hc : ∀ i : Nat, dl.cont[i]? ≠ some v := by
          intro i hc
          exact wf.contMode v (List.mem_of_getElem? hc) ((hasMode_iff v).1 hm)
        refine ⟨by simpa using l1, l2, fun i => ?_, fun i => ?_⟩
        · dsimp only at hk s1 l1 ⊢
          rw [List.getElem?_set]
          by_cases hik : k = i
          · subst hik
            simp [hk', hk, hget]
          · simp only [hik, if_false, s1 i]
            cases hd : dl.disc[i]? with
            | none => simp
            | some u =>
                have hu : u ≠ v := by
                  rintro rfl
                  have := (indexOf?_eq_some wf.discNodup u i).2 hd
                  rw [hi] at this; injection this with this; exact hik this
                simp [hget, hu]
        · dsimp only at s2 ⊢
          rw [s2 i]
          cases hd : dl.cont[i]? with
          | none => simp
          | some u =>
              have hu : u ≠ v := by rintro rfl; exact hc i hd
              simp [hget, hu]
    | false =>
      simp only [hm, Bool.false_eq_true, if_false] at hstep
      cases hi : indexOf? dl.cont v with
      | none => simp only [hi] at hstep; cases hstep
      | some k =>
        simp only [hi] at hstep
        obtain ⟨sl, hs, rfl⟩ := (map_ok_iff ..).1 hstep
        obtain ⟨hk, rfl⟩ := setAt_ok hs
        have hk' := (indexOf?_eq_some wf.contNodup v k).1 hi
        have hc : ∀ i : Nat, dl.disc[i]? ≠ some v := by
          intro i hc
          have := (hasMode_iff v).2 (wf.discMode v (List.mem_of_getElem? hc))
          rw [hm] at this; cases this
        refine ⟨l1, by simpa using l2, fun i => ?_, fun i => ?_⟩
        · dsimp only at s1 ⊢
          rw [s1 i]
          cases hd : dl.disc[i]? with
          | none => simp
          | some u =>
              have hu : u ≠ v := by rintro rfl; exact hc i hd
              simp [hget, hu]
        · dsimp only at hk s2 l2 ⊢
          rw [List.getElem?_set]
          by_cases hik : k = i
          · subst hik
            simp [hk', hk, hget]
          · simp only [hik, if_false, s2 i]
            cases hd : dl.cont[i]? with
            | none => simp
            | some u =>
                have hu : u ≠ v := by
                  rintro rfl
                  have := (indexOf?_eq_some wf.contNodup u i).2 hd
                  rw [hi] at this; injection this with this; exact hik this
                simp [hget, hu]

theorem forall₂_fst_eq {d : Dict String (List (Path Env V))} {pos : List (String × Path Env V)}
    (h : List.Forall₂ (fun a l => a ∈ l) pos (d.map (fun kv => kv.2.map (fun p => (kv.1, p))))) :
    pos.map Prod.fst = d.map Prod.fst ∧ ∀ v p, (v, p) ∈ pos → ∃ ps, (v, ps) ∈ d ∧ p ∈ ps := by
  induction d generalizing pos with
  | nil => cases h; simp
  | cons kv d ih =>
    cases h with
    | cons h1 h2 =>
      rename_i a l
      obtain ⟨e1, e2⟩ := ih h2
      obtain ⟨p, hp, rfl⟩ := List.mem_map.1 h1
      refine ⟨by simp [e1], ?_⟩
      intro v q hq
      rcases List.mem_cons.1 hq with hq | hq
      · injection hq with q1 q2; subst q1; subst q2
        exact ⟨kv.2, by simp, hp⟩
      · obtain ⟨ps, h3, h4⟩ := e2 v q hq
        exact ⟨ps, by simp [h3], h4⟩

theorem choose_mem_product {d : Dict String (List (Path Env V))} {f : String → Option (Path Env V)}
    (h : ∀ v ps, (v, ps) ∈ d → ∃ p ∈ ps, f v = some p) :
    ∃ pos, pos ∈ product (d.map (fun kv => kv.2.map (fun p => (kv.1, p)))) ∧
      pos.map Prod.fst = d.map Prod.fst ∧ ∀ v p, (v, p) ∈ pos → f v = some p := by
  induction d with
  | nil => exact ⟨[], by simp [product], rfl, by simp⟩
  | cons kv d ih =>
    obtain ⟨pos, h1, h2, h3⟩ := ih (fun v ps hv => h v ps (by simp [hv]))
    obtain ⟨k, ps⟩ := kv
    obtain ⟨p, hp, hf⟩ := h k ps (by simp)
    refine ⟨(k, p) :: pos, ?_, by simp [h2], ?_⟩
    · rw [mem_product] at h1 ⊢
      exact .cons (List.mem_map.2 ⟨p, hp, rfl⟩) h1
    · intro v q hq
      rcases List.mem_cons.1 hq with hq | hq
      · injection hq with q1 q2; subst q1; subst q2; exact hf
      · exact h3 v q hq

theorem mem_enabledFor {guards : List (Path Env V)} {env : Env} {v : String} {p : Path Env V} :
    p ∈ enabledFor guards env v ↔ p ∈ guards ∧ p.cond env = true ∧ p.var = v := by
  simp [enabledFor]

/-- `check_sim_transitions` computes exactly the outcomes of the controller. -/
theorem checkSim_spec {dl : Logic Env V} (wf : Logic.WF dl) {agent : String} {env : Env} {state mode : List V}
    {as : Option (List String)} {ts : List (Trans Env V)}
    (h : checkSim dl dl.paths agent env state mode = .ok (as, ts)) :
    (as = none ↔ failing dl env = []) ∧ (∀ l, as = some l → l = failing dl env ∧ l ≠ [] ∧ ts = []) ∧
    (∀ t ∈ ts, t.agent = agent) ∧ (ts = [] ↔ failing dl env ≠ [] ∨ ¬ Enabled dl env) ∧
    (failing dl env = [] → ∀ dest init,
      (∃ t ∈ ts, t.dest = dest ∧ t.init = init) ↔ Fires dl env state mode dest init) := by
  unfold checkSim at h
  rw [failedAsserts_eq] at h
  by_cases hf : failing dl env = []
  swap
  · simp only [hf, ne_eq, not_false_eq_true, if_true] at h
    injection h with h; injection h with h1 h2
    subst h1; subst h2
    simp [hf]
  simp only [hf, ne_eq, not_true, if_false] at h
  obtain ⟨hk, hget⟩ := allResets_spec dl.paths env
  have hemp : allResets dl.paths env = [] ↔ ¬ Enabled dl env := by
    constructor
    · rintro he ⟨p, hp, hc⟩
      have := hget p.var
      rw [he] at this
      have hm : p ∈ enabledFor dl.paths env p.var := mem_enabledFor.2 ⟨hp, hc, rfl⟩
      rw [if_neg (List.ne_nil_of_mem hm)] at this
      simp at this
    · intro hn
      cases he : allResets dl.paths env with
      | nil => rfl
      | cons kv d =>
        exfalso
        have := hget kv.1
        rw [he] at this
        obtain ⟨k, v⟩ := kv
        rw [Dict.get?_cons, if_pos rfl] at this
        by_cases hx : enabledFor dl.paths env k = []
        · simp [hx] at this
        · obtain ⟨p, hp⟩ := List.exists_mem_of_ne_nil _ hx
          obtain ⟨h1, h2, _⟩ := mem_enabledFor.1 hp
          exact hn ⟨p, h1, h2⟩
  by_cases hall : allResets dl.paths env = []
  · simp only [hall, if_true] at h
    injection h with h; injection h with h1 h2
    subst h1; subst h2
    have hne := hemp.1 hall
    refine ⟨by simp [hf], by simp, by simp, by simp [hne], ?_⟩
    intro _ dest init
    simp only [List.not_mem_nil, false_and, exists_false, false_iff]
    rintro ⟨f, f1, _, ⟨v, f3⟩, _⟩
    obtain ⟨p, hp⟩ := Option.isSome_iff_exists.1 f3
    obtain ⟨q1, _, q3⟩ := f1 v p hp
    exact hne ⟨p, q1, q3⟩
  · simp only [hall, if_false] at h
    obtain ⟨l, hl, e⟩ := (map_ok_iff ..).1 h
    injection e with e1 e2
    subst e1; subst e2
    rw [mapM_ok_iff] at hl
    have hen : Enabled dl env := by
      by_contra hn; exact hall (hemp.2 hn)
    have hmem : ∀ v ps, (v, ps) ∈ allResets dl.paths env ↔ ps = enabledFor dl.paths env v ∧ ps ≠ [] := by
      intro v ps
      constructor
      · intro hm
        have := Dict.get?_of_mem hk hm
        rw [hget] at this
        split at this
        · cases this
        · injection this with this; subst this; exact ⟨rfl, by assumption⟩
      · rintro ⟨rfl, hne⟩
        apply Dict.mem_of_get?
        rw [hget, if_neg hne]
    -- a product element yields an outcome
    have hout : ∀ pos t, pos ∈ product ((allResets dl.paths env).map (fun kv => kv.2.map (fun p => (kv.1, p)))) →
        applyResets dl env agent state mode pos = .ok t →
        t.agent = agent ∧ t.dest.length = mode.length ∧ t.init.length = state.length ∧
        (∀ i : Nat, t.dest[i]? = match dl.disc[i]?.bind (Dict.get? pos) with
          | some p => some (p.val env)
          | none => mode[i]?) ∧
        (∀ i : Nat, t.init[i]? = match dl.cont[i]?.bind (Dict.get? pos) with
          | some p => some (p.val env)
          | none => state[i]?) := by
      intro pos t hpos ht
      rw [mem_product] at hpos
      obtain ⟨e1, _⟩ := forall₂_fst_eq hpos
      unfold applyResets at ht
      obtain ⟨r, hr, rfl⟩ := (map_ok_iff ..).1 ht
      obtain ⟨r1, r2, r3, r4⟩ := applyReset_fold wf env state mode (by rw [e1]; exact hk) hr
      refine ⟨rfl, by simpa using r1, r2, fun i => ?_, r4⟩
      simp only [List.getElem?_map, r3 i]
      split <;> rename_i hh
      · simp
      · simp [Function.comp_def]
    refine ⟨by simp [hf], by simp, ?_, ?_, ?_⟩
    · intro t ht
      obtain ⟨pos, hpos, hp⟩ := forall₂_mem_right hl ht
      exact (hout pos t hpos hp).1
    · simp only [hf, ne_eq, not_true, false_or, hen, iff_false]
      intro hn
      subst hn
      have hnil : product ((allResets dl.paths env).map (fun kv => kv.2.map (fun p => (kv.1, p)))) = [] := by
        exact List.forall₂_nil_right_iff.1 hl
      have hc : ∃ f : String → Option (Path Env V), ∀ v ps, (v, ps) ∈ allResets dl.paths env → ∃ p ∈ ps, f v = some p := by
        refine ⟨fun v => (enabledFor dl.paths env v).head?, ?_⟩
        intro v ps hv
        obtain ⟨rfl, hne⟩ := (hmem v ps).1 hv
        cases hx : enabledFor dl.paths env v with
        | nil => exact absurd hx hne
        | cons a l => exact ⟨a, by simp, by simp [hx]⟩
      obtain ⟨f, hf'⟩ := hc
      obtain ⟨pos, hpos, _⟩ := choose_mem_product hf'
      rw [hnil] at hpos
      simp at hpos
    · intro _ dest init
      constructor
      · rintro ⟨t, ht, rfl, rfl⟩
        obtain ⟨pos, hpos, hp⟩ := forall₂_mem_right hl ht
        obtain ⟨_, o1, o2, o3, o4⟩ := hout pos t hpos hp
        rw [mem_product] at hpos
        obtain ⟨e1, e2⟩ := forall₂_fst_eq hpos
        have hpk : (pos.map Prod.fst).Nodup := by rw [e1]; exact hk
        refine ⟨Dict.get? pos, ?_, ?_, ?_, o1, o2, o3, o4⟩
        · intro v p hv
          obtain ⟨ps, h1, h2⟩ := e2 v p (Dict.mem_of_get? hv)
          obtain ⟨rfl, _⟩ := (hmem v ps).1 h1
          obtain ⟨g1, g2, g3⟩ := mem_enabledFor.1 h2
          exact ⟨g1, g3, g2⟩
        · intro p hp1 hp2
          rw [Dict.isSome_get?_iff, e1]
          have : (p.var, enabledFor dl.paths env p.var) ∈ allResets dl.paths env :=
            (hmem _ _).2 ⟨rfl, List.ne_nil_of_mem (mem_enabledFor.2 ⟨hp1, hp2, rfl⟩)⟩
          exact List.mem_map_of_mem (f := Prod.fst) this
        · obtain ⟨p, hp1, hp2⟩ := hen
          refine ⟨p.var, ?_⟩
          rw [Dict.isSome_get?_iff, e1]
          have : (p.var, enabledFor dl.paths env p.var) ∈ allResets dl.paths env :=
            (hmem _ _).2 ⟨rfl, List.ne_nil_of_mem (mem_enabledFor.2 ⟨hp1, hp2, rfl⟩)⟩
          exact List.mem_map_of_mem (f := Prod.fst) this
      · rintro ⟨f, f1, f2, f3, f4, f5, f6, f7⟩
        have hc : ∀ v ps, (v, ps) ∈ allResets dl.paths env → ∃ p ∈ ps, f v = some p := by
          intro v ps hv
          obtain ⟨rfl, hne⟩ := (hmem v ps).1 hv
          obtain ⟨q, hq⟩ := List.exists_mem_of_ne_nil _ hne
          obtain ⟨q1, q2, q3⟩ := mem_enabledFor.1 hq
          have := f2 q q1 q2
          rw [q3] at this
          obtain ⟨p, hp⟩ := Option.isSome_iff_exists.1 this
          obtain ⟨p1, p2, p3⟩ := f1 v p hp
          exact ⟨p, mem_enabledFor.2 ⟨p1, p3, p2⟩, hp⟩
        obtain ⟨pos, hpos, k1, k2⟩ := choose_mem_product hc
        obtain ⟨t, ht, happ⟩ := forall₂_mem_left hl hpos
        obtain ⟨_, o1, o2, o3, o4⟩ := hout pos t hpos happ
        have hfe : ∀ v, Dict.get? pos v = f v := by
          intro v
          cases hg : Dict.get? pos v with
          | some p => exact (k2 v p (Dict.mem_of_get? hg)).symm
          | none =>
            cases hfv : f v with
            | none => rfl
            | some p =>
              exfalso
              obtain ⟨p1, p2, p3⟩ := f1 v p hfv
              have hm : (v, enabledFor dl.paths env v) ∈ allResets dl.paths env :=
                (hmem _ _).2 ⟨rfl, List.ne_nil_of_mem (mem_enabledFor.2 ⟨p1, p3, p2⟩)⟩
              have := (Dict.get?_none_iff pos v).1 hg
              rw [k1] at this
              exact this (List.mem_map_of_mem (f := Prod.fst) hm)
        have hfe' : Dict.get? pos = f := funext hfe
        refine ⟨t, ht, ?_, ?_⟩
        · apply List.ext_getElem?
          intro i; rw [o3, f6, hfe']; cases dl.disc[i]?.bind f <;> rfl
        · apply List.ext_getElem?
          intro i; rw [o4, f7, hfe']; cases dl.cont[i]?.bind f <;> rfl

end Verif.Sim
