import Verif.Proofs.Scenario
import Mathlib.Algebra.Order.Ring.Rat

/-! C35: initial sets are attached to the right agents and are isolated from the lists of the caller. -/

set_option autoImplicit false

namespace Verif.Props

open Verif.Scn Verif.Scn.Spec Verif.Proofs.Scn

variable {K V : Type}

/-- What the scenario `st'` says about an agent: mode, parameters, and the initial rectangle, which no change to the objects of the heap `h` affects; the
same for the agent's own record, which is another copy. -/
def HasInit (h : Heap K) (st' : St K V) (id : String) (rows : List (List K)) (mode static uncertain : List V) : Prop :=
  ∃ m n a, Dict.get? st'.scen.init id = some m ∧ Isolated h st'.heap m (corners rows) ∧ Dict.get? st'.scen.mode id = some mode ∧
    Dict.get? st'.scen.static id = some static ∧ Dict.get? st'.scen.uncertain id = some uncertain ∧
    Dict.get? st'.scen.agents id = some a ∧ a.initCont = some n ∧ a.initDisc = some mode ∧ n ≠ m ∧ Isolated h st'.heap n (corners rows)

/-- The scenario says the same about the agent in both states. -/
def SameFor (s s' : Scen V) (id : String) : Prop :=
  Dict.get? s'.agents id = Dict.get? s.agents id ∧ Dict.get? s'.init id = Dict.get? s.init id ∧ Dict.get? s'.mode id = Dict.get? s.mode id ∧
    Dict.get? s'.static id = Dict.get? s.static id ∧ Dict.get? s'.uncertain id = Dict.get? s.uncertain id

/-- **C35** for one agent: after `set_init_single`, the agent has the given initial rectangle and mode; other agents are unaffected; no object that existed before
is changed. The sizes fit the decision logic of the agent. -/
theorem C35_single (st st' : St K V) (id : String) (init : Nat) (mode static uncertain : List V)
    (run : setInitSingle st id init mode static uncertain = .ok st') :
    (∃ rows, deref st.heap init = some rows ∧ (rows.length = 1 ∨ rows.length = 2) ∧ HasInit st.heap st' id rows mode static uncertain ∧
      ∀ a nc nd, Dict.get? st.scen.agents id = some a → a.sizes = some (nc, nd) → (∀ r ∈ rows, r.length = nc) ∧ mode.length = nd) ∧
    (∀ id', id' ≠ id → SameFor st.scen st'.scen id') ∧ Grown st.heap st'.heap ∧ st'.scen.agents.keys = st.scen.agents.keys := by
  obtain ⟨a, rows, m, n, ha, hd, hl, hs, hg, im, inn, hmn, he⟩ := setInitSingle_spec run
  refine ⟨⟨rows, hd, hl, ⟨m, n, { a with initCont := some n, initDisc := some mode, static := static, uncertain := uncertain }, ?_, im, ?_, ?_, ?_, ?_, rfl,
    rfl, hmn.symm, inn⟩, ?_⟩, ?_, hg, ?_⟩
  · rw [he]; exact Dict.get?_set_self _ _ _
  · rw [he]; exact Dict.get?_set_self _ _ _
  · rw [he]; exact Dict.get?_set_self _ _ _
  · rw [he]; exact Dict.get?_set_self _ _ _
  · rw [he]; exact Dict.get?_set_self _ _ _
  · intro a' nc nd ha' hsz
    rw [ha] at ha'; injection ha' with ha'; subst ha'
    exact hs nc nd hsz
  · intro id' hne
    rw [he]
    refine ⟨?_, ?_, ?_, ?_, ?_⟩ <;> exact Dict.get?_set_ne _ _ _ _ hne.symm
  · rw [he]
    show (Dict.set _ _ _).map Prod.fst = _
    rw [Dict.keys_set]
    have : id ∈ st.scen.agents.map Prod.fst := (Dict.isSome_get?_iff _ _).1 (by rw [ha]; rfl)
    exact if_pos this

theorem hasInit_of_same {h0 : Heap K} {st1 st2 : St K V} {id : String} {rows : List (List K)} {mode static uncertain : List V}
    (h : HasInit h0 st1 id rows mode static uncertain) (hs : SameFor st1.scen st2.scen id) (hg : Grown st1.heap st2.heap) :
    HasInit h0 st2 id rows mode static uncertain := by
  obtain ⟨m, n, a, h1, h2, h3, h4, h5, h6, h7, h8, h9, h10⟩ := h
  obtain ⟨s1, s2, s3, s4, s5⟩ := hs
  exact ⟨m, n, a, s2.trans h1, isolated_grown h2 hg, s3.trans h3, s4.trans h4, s5.trans h5, s1.trans h6, h7, h8, h9, isolated_grown h10 hg⟩

theorem hasInit_older {h0 h : Heap K} {st : St K V} {id : String} {rows : List (List K)} {mode static uncertain : List V}
    (hi : HasInit h st id rows mode static uncertain) (hg : Grown h0 h) : HasInit h0 st id rows mode static uncertain := by
  obtain ⟨m, n, a, h1, h2, h3, h4, h5, h6, h7, h8, h9, h10⟩ := hi
  exact ⟨m, n, a, h1, isolated_older h2 hg, h3, h4, h5, h6, h7, h8, h9, isolated_older h10 hg⟩

theorem setLoop_spec : ∀ (ids : List String) (given : List (Given V)) (st st' : St K V), setLoop st ids given = .ok st' → ids.Nodup →
    Grown st.heap st'.heap ∧ st'.scen.agents.keys = st.scen.agents.keys ∧ (∀ id, id ∉ ids → SameFor st.scen st'.scen id) ∧
    ∀ (i : Nat) (id : String) (g : Given V) (rows : List (List K)), ids[i]? = some id → given[i]? = some g → deref st.heap g.init = some rows →
      HasInit st.heap st' id rows g.mode g.static g.uncertain := by
  intro ids
  induction ids with
  | nil =>
    intro given st st' h _
    have h : Except.ok st = Except.ok (ε := String) st' := h
    injection h with h; subst h
    exact ⟨grown_refl _, rfl, fun _ _ => ⟨rfl, rfl, rfl, rfl, rfl⟩, fun i id g rows hi => by simp at hi⟩
  | cons id0 ids ih =>
    intro given st st' h hn
    cases given with
    | nil =>
      have h : Except.ok st = Except.ok (ε := String) st' := h
      injection h with h; subst h
      exact ⟨grown_refl _, rfl, fun _ _ => ⟨rfl, rfl, rfl, rfl, rfl⟩, fun i id g rows _ hi => by simp at hi⟩
    | cons g0 given =>
      unfold setLoop at h
      obtain ⟨st1, h1, h⟩ := (bind_ok_iff _ _ _).1 h
      rw [List.nodup_cons] at hn
      obtain ⟨⟨rows0, hr0, -, hi0, -⟩, hf0, hg0, hk0⟩ := C35_single st st1 id0 _ _ _ _ h1
      obtain ⟨g1, k1, f1, i1⟩ := ih given st1 st' h hn.2
      refine ⟨grown_trans hg0 g1, k1.trans hk0, ?_, ?_⟩
      · intro id hid
        rw [List.mem_cons, not_or] at hid
        obtain ⟨a1, a2, a3, a4, a5⟩ := hf0 id hid.1
        obtain ⟨b1, b2, b3, b4, b5⟩ := f1 id hid.2
        exact ⟨b1.trans a1, b2.trans a2, b3.trans a3, b4.trans a4, b5.trans a5⟩
      · intro i id g rows hi hgi hd
        cases i with
        | zero =>
          simp only [List.getElem?_cons_zero, Option.some.injEq] at hi hgi
          subst hi hgi
          rw [hr0] at hd; injection hd with hd; subst hd
          exact hasInit_of_same hi0 (f1 _ hn.1) g1
        | succ i =>
          simp only [List.getElem?_cons_succ] at hi hgi
          exact hasInit_older (i1 i id g rows hi hgi (grown_deref hg0 hd)) hg0

/-- **C35**. After `set_init`, the agent at position `i` (in the order in which the agents were added) has the mode, the parameters and the initial rectangle given at
position `i`; a single state is a degenerate rectangle; nothing that later happens to objects that existed before the call changes this, and the call changed none of
them; the scenario is ready for analysis. -/
theorem C35_set_init (st st' : St K V) (given : List (Given V)) (hn : (st.scen.agents.map Prod.fst).Nodup) (run : setInit st given = .ok st') :
    (∀ (i : Nat) (id : String) (g : Given V) (rows : List (List K)), st.scen.agents.keys[i]? = some id → given[i]? = some g →
      deref st.heap g.init = some rows → HasInit st.heap st' id rows g.mode g.static g.uncertain) ∧
    Grown st.heap st'.heap ∧ st'.scen.agents.keys = st.scen.agents.keys ∧ checkInit st'.scen = true := by
  unfold setInit at run
  by_cases hl : given.length = st.scen.agents.length
  · rw [if_pos hl] at run
    obtain ⟨g1, k1, -, i1⟩ := setLoop_spec _ _ _ _ run hn
    refine ⟨i1, g1, k1, ?_⟩
    unfold checkInit
    rw [List.all_eq_true]
    intro id hid
    rw [k1] at hid
    -- every agent was set by a step of the loop
    have hall : ∀ (ids : List String) (given : List (Given V)) (st st' : St K V), given.length = ids.length → setLoop st ids given = .ok st' → ids.Nodup →
        ∀ id ∈ ids, ∃ rows mode static uncertain, HasInit st.heap st' id rows mode static uncertain := by
      intro ids
      induction ids with
      | nil => intro _ _ _ _ _ _ id hid; cases hid
      | cons id0 ids ih =>
        intro given st st' hl h hn id hid
        cases given with
        | nil => simp at hl
        | cons g0 given =>
          unfold setLoop at h
          obtain ⟨st1, h1, h⟩ := (bind_ok_iff _ _ _).1 h
          rw [List.nodup_cons] at hn
          obtain ⟨⟨rows0, hr0, -, hi0, -⟩, hf0, hg0, hk0⟩ := C35_single st st1 id0 _ _ _ _ h1
          obtain ⟨g1, k1, f1, i1⟩ := setLoop_spec ids given st1 st' h hn.2
          rcases List.mem_cons.1 hid with rfl | hid
          · exact ⟨_, _, _, _, hasInit_of_same hi0 (f1 _ hn.1) g1⟩
          · obtain ⟨r, m, s, u, hh⟩ := ih given st1 st' (by simpa using hl) h hn.2 id hid
            exact ⟨r, m, s, u, hasInit_older hh hg0⟩
    obtain ⟨r, m, s, u, k, n, a, h1, -, h3, h4, h5, -⟩ := hall _ _ _ _ (by rw [hl]; simp [Dict.keys]) run hn id hid
    simp only [Bool.and_eq_true, Dict.mem_iff, h1, h3, h4, h5, Option.isSome_some, and_self]
  · rw [if_neg hl] at run; cases run

/-- A call of `set_init_single`. -/
structure Call (V : Type) where
  id : String
  given : Given V

/-- **C35** for any sequence of calls: for every agent, the last call counts. (`post`: the calls after it.) -/
theorem C35_last_call (st st' : St K V) (pre post : List (Call V)) (c : Call V)
    (run : (pre ++ c :: post).foldlM (fun st (c : Call V) => setInitSingle st c.id c.given.init c.given.mode c.given.static c.given.uncertain) st = .ok st')
    (last : ∀ d ∈ post, d.id ≠ c.id) (rows : List (List K)) (hd : deref st.heap c.given.init = some rows) :
    HasInit st.heap st' c.id rows c.given.mode c.given.static c.given.uncertain ∧ Grown st.heap st'.heap := by
  let f := fun (st : St K V) (c : Call V) => setInitSingle st c.id c.given.init c.given.mode c.given.static c.given.uncertain
  have hgrow : ∀ (l : List (Call V)) (s s' : St K V), l.foldlM f s = .ok s' → Grown s.heap s'.heap ∧
      ∀ id, (∀ d ∈ l, d.id ≠ id) → SameFor s.scen s'.scen id := by
    intro l
    induction l with
    | nil =>
      intro s s' h
      have h : Except.ok s = Except.ok (ε := String) s' := h
      injection h with h; subst h
      exact ⟨grown_refl _, fun _ _ => ⟨rfl, rfl, rfl, rfl, rfl⟩⟩
    | cons d l ih =>
      intro s s' h
      obtain ⟨s1, h1, h⟩ := (foldlM_cons_ok _ _ _ _ _).1 h
      obtain ⟨-, hf0, hg0, -⟩ := C35_single s s1 d.id _ _ _ _ h1
      obtain ⟨g1, f1⟩ := ih s1 s' h
      refine ⟨grown_trans hg0 g1, ?_⟩
      intro id hid
      obtain ⟨a1, a2, a3, a4, a5⟩ := hf0 id (hid d (by simp)).symm
      obtain ⟨b1, b2, b3, b4, b5⟩ := f1 id (fun e he => hid e (List.mem_cons_of_mem _ he))
      exact ⟨b1.trans a1, b2.trans a2, b3.trans a3, b4.trans a4, b5.trans a5⟩
  rw [List.foldlM_append] at run
  obtain ⟨s1, h1, run⟩ := (bind_ok_iff _ _ _).1 run
  obtain ⟨s2, h2, run⟩ := (foldlM_cons_ok _ _ _ _ _).1 run
  obtain ⟨g1, -⟩ := hgrow _ _ _ h1
  obtain ⟨g3, f3⟩ := hgrow _ _ _ run
  obtain ⟨⟨rows', hr', -, hi, -⟩, -, g2, -⟩ := C35_single s1 s2 c.id _ _ _ _ h2
  rw [grown_deref g1 hd] at hr'
  injection hr' with hr'; subst hr'
  exact ⟨hasInit_older (hasInit_of_same hi (f3 c.id last) g3) g1, grown_trans g1 (grown_trans g2 g3)⟩

/-- **C35** for `add_agent`: an initial condition the agent already has is copied, so later changes to the agent's own lists have no effect; other agents are
unaffected. -/
theorem C35_add_agent (st st' : St K V) (id : String) (a : Agent V) (m : Nat) (rows : List (List K)) (run : addAgent st id a = .ok st')
    (hm : a.initCont = some m) (hd : deref st.heap m = some rows) :
    (∃ m', Dict.get? st'.scen.init id = some m' ∧ Isolated st.heap st'.heap m' rows) ∧ Dict.get? st'.scen.agents id = some a ∧
    (∀ d, a.initDisc = some d → Dict.get? st'.scen.mode id = some d) ∧ (∀ id', id' ≠ id → SameFor st.scen st'.scen id') ∧ Grown st.heap st'.heap := by
  obtain ⟨⟨h, d⟩, hc, he⟩ := (map_ok_iff _ _ _).1 run
  subst he
  rw [hm] at hc
  unfold copyInit at hc
  obtain ⟨refs, hrefs, hf⟩ := deref_iff.1 hd
  dsimp only at hc
  rw [hrefs] at hc
  obtain ⟨⟨h1, n⟩, hdc, he⟩ := (map_ok_iff _ _ _).1 hc
  injection he with he1 he2
  subst he1 he2
  obtain ⟨hg, hi⟩ := deepcopy_spec hdc hf
  refine ⟨⟨n, Dict.get?_set_self _ _ _, hi⟩, Dict.get?_set_self _ _ _, ?_, ?_, hg⟩
  · intro dd hdd
    show Dict.get? (copyMode _ _ a.initDisc) id = _
    rw [hdd]
    exact Dict.get?_set_self _ _ _
  · intro id' hne
    refine ⟨Dict.get?_set_ne _ _ _ _ hne.symm, Dict.get?_set_ne _ _ _ _ hne.symm, ?_, Dict.get?_set_ne _ _ _ _ hne.symm, Dict.get?_set_ne _ _ _ _ hne.symm⟩
    show Dict.get? (copyMode _ _ a.initDisc) id' = _
    cases a.initDisc with
    | none => rfl
    | some x => exact Dict.get?_set_ne _ _ _ _ hne.symm

/-- A single state given through the agent does **not** become a degenerate rectangle: the scenario has one row only. -/
theorem C35_add_agent_single_violated : ∃ (st st' : St ℚ String) (a : Agent String), addAgent st "car" a = .ok st' ∧
    (a.initCont.bind (deref st.heap)) = some [[5, 5]] ∧ ((Dict.get? st'.scen.init "car").bind (deref st'.heap)) = some [[5, 5]] ∧
    checkInit st'.scen = true := by
  have h : (addAgent (K := ℚ) ⟨⟨[[5, 5]], [[0]]⟩, ⟨[], [], [], [], []⟩⟩ "car" ⟨none, some 0, some ["Fast"], [], []⟩).map
      (fun st' => (((Dict.get? st'.scen.init "car").bind (deref st'.heap)), checkInit st'.scen)) = .ok (some [[5, 5]], true) := by decide +kernel
  obtain ⟨st', h1, h2⟩ := (map_ok_iff _ _ _).1 h
  injection h2 with h2 h3
  exact ⟨_, st', _, h1, by decide +kernel, h2, h3⟩

/-! ### A concrete case -/

namespace ScnEx

/-- Two agents; the caller has a rectangle and a single state. -/
def agent : Agent String := ⟨some (2, 1), none, none, [], []⟩

def st : St ℚ String :=
  ⟨⟨[[0, 0], [1, 1], [5, 5]], [[0, 1], [2]]⟩, ⟨[("car", agent), ("bus", agent)], [], [], [("car", []), ("bus", [])], [("car", []), ("bus", [])]⟩⟩

def given : List (Given String) := [⟨0, ["Fast"], [], []⟩, ⟨1, ["Slow"], [], []⟩]

end ScnEx

set_option synthInstance.maxSize 1000 in
open ScnEx in
/-- The hypotheses of `C35_set_init` can be met, and the result is as expected: the caller then overwrites its rows, the scenario is unchanged. -/
example : ((st.scen.agents.map Prod.fst).Nodup) ∧ ((setInit st given).map (fun st' => (["car", "bus"].map (Dict.get? st'.scen.init), ["car", "bus"].map (Dict.get? st'.scen.mode),
      ["car", "bus"].map (fun id => (Dict.get? st'.scen.init id).bind (deref st'.heap)),
      ["car", "bus"].map (fun id => (Dict.get? st'.scen.init id).bind (deref ⟨[[9, 9], [9, 9], [9, 9]] ++ st'.heap.rows.drop 3, st'.heap.mats⟩))))
    = .ok ([some 2, some 4], [some ["Fast"], some ["Slow"]],
        [some [[0, 0], [1, 1]], some [[5, 5], [5, 5]]], [some [[0, 0], [1, 1]], some [[5, 5], [5, 5]]])) := by
  decide +kernel

end Verif.Props
