import Verif.Proofs.Session

/-! C88: every analysis starts from the initial conditions that were given. -/

set_option autoImplicit false
set_option linter.unusedSectionVars false

namespace Verif.Props

open Verif.Scn Verif.Scn.Spec Verif.Proofs.Scn Verif.Proofs.Session

variable {G K M Tree Args : Type} [Field K] [LinearOrder K] [IsStrictOrderedRing K]

/-- **C88**, `simulate` (and `simulate_simple`). The simulator is run once, from a root in which every agent with an initial set in the scenario starts in a state of
that set, in its mode and with its parameters; an agent that has only an initial condition of its own starts from this one. The tree is recorded as the last of the
earlier runs. -/
theorem C88_start (R : Rng G K) (hR : Fair R) (tool : Tool K (List K) M Tree Args) (s s' : Session G K M Tree) (args : Args) (seed : Option Int) (t : Tree)
    (run : simulate R tool s args seed = .ok (t, s')) :
    ∃ root : Root K (List K), tool s.tool root args s.past.length s.past = .ok (t, s'.tool) ∧ s'.past = s.past ++ [t] ∧
      root.agents.keys = s.st.scen.agents.keys ∧
      (∀ id rows mode static uncertain, Knows s.st id rows mode static uncertain → ∃ x, RootIs root id x mode static uncertain ∧ StateIn rows x) ∧
      (∀ id rows mode static uncertain, id ∈ s.st.scen.agents.keys → OwnInit s.st id rows mode static uncertain →
        ∃ x, RootIs root id x mode static uncertain ∧ StateIn (corners rows) x) := by
  obtain ⟨st, pts, root, hst, -, hp, hr, ht, hpast, -, -⟩ := simulate_ok run
  have key : ∀ id rows mode static uncertain, Knows st id rows mode static uncertain → ∃ x, RootIs root id x mode static uncertain ∧ StateIn rows x := by
    intro id rows mode static uncertain hk
    obtain ⟨⟨m, h1, h2⟩, h3, h4, h5⟩ := hk
    obtain ⟨g0, b, hb, hg⟩ := mapDictG_get hp h1
    obtain ⟨rows', hrows, hb⟩ := (bind_ok_iff _ _ _).1 hb
    unfold rowsOf at hrows
    rw [h2] at hrows
    injection hrows with hrows; subst hrows
    exact ⟨b.1, mkRoot_is hr hg h3 h4 h5, sample_in hR hb⟩
  refine ⟨root, ht, hpast, ?_, fun id rows mode static uncertain hk => key _ _ _ _ _ (fold_knows hst hk),
    fun id rows mode static uncertain hm hk => key _ _ _ _ _ (fold_own hst hm hk)⟩
  rw [(mkRoot_init hr).2]
  exact fold_keys hst

/-- **C88** after `set_init`: whatever the caller did to its lists in between, the agent at position `i` starts in a state of the rectangle given at position `i`, in the
mode given at position `i`. -/
theorem C88_given (R : Rng G K) (hR : Fair R) (tool : Tool K (List K) M Tree Args) (st st' : St K MVal) (given : List (Given MVal))
    (hn : (st.scen.agents.map Prod.fst).Nodup) (hset : setInit st given = .ok st') (s s' : Session G K M Tree) (hs : s.st.scen = st'.scen)
    (hh : SameNew st.heap st'.heap s.st.heap) (args : Args) (seed : Option Int) (t : Tree) (run : simulate R tool s args seed = .ok (t, s')) :
    ∃ root : Root K (List K), tool s.tool root args s.past.length s.past = .ok (t, s'.tool) ∧
      ∀ (i : Nat) (id : String) (g : Given MVal) (rows : List (List K)), st.scen.agents.keys[i]? = some id → given[i]? = some g → deref st.heap g.init = some rows →
        ∃ x, RootIs root id x g.mode g.static g.uncertain ∧ StateIn (corners rows) x := by
  obtain ⟨root, ht, -, -, hk, -⟩ := C88_start R hR tool s s' args seed t run
  obtain ⟨hi, -⟩ := C35_set_init st st' given hn hset
  refine ⟨root, ht, fun i id g rows h1 h2 h3 => ?_⟩
  obtain ⟨m, n, a, i1, i2, i3, i4, i5, -⟩ := hi i id g rows h1 h2 h3
  refine hk id (corners rows) g.mode g.static g.uncertain ⟨⟨m, ?_, i2 _ hh⟩, ?_, ?_, ?_⟩
  · rw [hs]; exact i1
  · rw [hs]; exact i3
  · rw [hs]; exact i4
  · rw [hs]; exact i5

/-- **C88**, `verify`: the verifier is run once, from a root that has the whole initial set of every agent, with the modes and parameters; so every state in which a
simulation of the same scenario can start is in the sets from which `verify` starts. -/
theorem C88_verify (tool : Tool K (List (List (List K))) M Tree Args) (s s' : Session G K M Tree) (args : Args) (t : Tree)
    (run : verify tool s args = .ok (t, s')) :
    ∃ root : Root K (List (List (List K))), tool s.tool root args s.past.length s.past = .ok (t, s'.tool) ∧ s'.past = s.past ++ [t] ∧
      root.agents.keys = s.st.scen.agents.keys ∧ (∀ id ∈ s.st.scen.agents.keys, ∃ rows mode static uncertain, Knows s.st id rows mode static uncertain) ∧
      ∀ id rows mode static uncertain, Knows s.st id rows mode static uncertain → RootIs root id [rows] mode static uncertain := by
  unfold verify at run
  by_cases hc : checkInit s.st.scen = true
  · rw [if_pos hc] at run
    obtain ⟨init, hi, run⟩ := (bind_ok_iff _ _ _).1 run
    obtain ⟨root, hr, run⟩ := (bind_ok_iff _ _ _).1 run
    obtain ⟨h1, h2, -⟩ := runTool_ok run
    refine ⟨root, h1, h2, by rw [(mkRoot_init hr).2], ?_, ?_⟩
    · intro id hid
      unfold checkInit at hc
      rw [List.all_eq_true] at hc
      have := hc id hid
      simp only [Bool.and_eq_true, Dict.mem_iff, Option.isSome_iff_exists] at this
      obtain ⟨⟨⟨⟨m, hm⟩, ⟨md, hmd⟩⟩, ⟨sp, hsp⟩⟩, ⟨u, hu⟩⟩ := this
      obtain ⟨b, hb, -⟩ := mapDict_get hi hm
      obtain ⟨rows, hrows, -⟩ := (map_ok_iff _ _ _).1 hb
      refine ⟨rows, md, sp, u, ⟨m, hm, ?_⟩, hmd, hsp, hu⟩
      unfold rowsOf at hrows
      cases hd : deref s.st.heap m with
      | none => rw [hd] at hrows; cases hrows
      | some r => rw [hd] at hrows; injection hrows with hrows; rw [hrows]
    · intro id rows mode static uncertain hk
      obtain ⟨⟨m, hm, hd⟩, h3, h4, h5⟩ := hk
      obtain ⟨b, hb, hg⟩ := mapDict_get hi hm
      obtain ⟨rows', hrows, rfl⟩ := (map_ok_iff _ _ _).1 hb
      unfold rowsOf at hrows
      rw [hd] at hrows
      injection hrows with hrows; subst hrows
      exact mkRoot_is hr hg h3 h4 h5
  · rw [if_neg hc] at run; cases run

theorem ok_bind {α β ε : Type} (a : α) (f : α → Except ε β) : (Except.ok a : Except ε α).bind f = f a := rfl

/-- **C88**, seeds: with a seed, the tree does not depend on what was drawn before. -/
theorem C88_seed (R : Rng G K) (tool : Tool K (List K) M Tree Args) (s : Session G K M Tree) (g : G) (args : Args) (k : Int) :
    (simulate R tool s args (some k)).map Prod.fst = (simulate R tool { s with rng := g } args (some k)).map Prod.fst := by
  unfold simulate
  dsimp only
  cases hst : getInit s.st with
  | error e => rfl
  | ok st =>
    simp only [ok_bind]
    by_cases hc : checkInit st.scen = true
    · rw [if_pos hc, if_pos hc]
      have hfree := mapDictG_free (f := fun m g => (rowsOf st.heap m).bind fun rows => sample R (some k) rows g)
        (fun a g g' => rfl) st.scen.init s.rng g
      generalize mapDictG _ st.scen.init s.rng = A at hfree ⊢
      generalize mapDictG _ st.scen.init g = B at hfree ⊢
      cases A with
      | error e =>
        cases B with
        | error e' => injection hfree with h; subst h; rfl
        | ok q => cases hfree
      | ok p =>
        cases B with
        | error e' => cases hfree
        | ok q =>
          have hq : p.1 = q.1 := by injection hfree
          simp only [ok_bind]
          rw [hq]
          cases mkRoot (K := K) st.scen q.1 with
          | error e => rfl
          | ok root =>
            simp only [ok_bind, runTool]
            cases tool s.tool root args s.past.length s.past <;> rfl
    · rw [if_neg hc, if_neg hc]

/-- With a tool that has no memory (`incremental` is off), a seed determines the tree: neither earlier runs nor earlier draws matter. -/
theorem C88_seed_plain (R : Rng G K) (tool : Tool K (List K) M Tree Args) (hm : Memoryless tool) (s s' : Session G K M Tree) (hs : s.st = s'.st) (args : Args) (k : Int) :
    (simulate R tool s args (some k)).map Prod.fst = (simulate R tool s' args (some k)).map Prod.fst := by
  rw [C88_seed R tool s s'.rng args k]
  unfold simulate
  dsimp only
  rw [hs]
  cases getInit s'.st with
  | error e => rfl
  | ok st =>
    simp only [ok_bind]
    by_cases hc : checkInit st.scen = true
    · rw [if_pos hc, if_pos hc]
      generalize mapDictG _ st.scen.init s'.rng = A
      cases A with
      | error e => rfl
      | ok p =>
        simp only [ok_bind]
        cases mkRoot (K := K) st.scen p.1 with
        | error e => rfl
        | ok root =>
          simp only [ok_bind, runTool]
          have h := hm s.tool s'.tool root args s.past.length s'.past.length s.past s'.past
          generalize tool s.tool root args s.past.length s.past = A at h ⊢
          generalize tool s'.tool root args s'.past.length s'.past = B at h ⊢
          cases A with
          | error e =>
            cases B with
            | error e' => injection h with h; subst h; rfl
            | ok q => cases h
          | ok q =>
            cases B with
            | error e' => cases h
            | ok q' =>
              have : q.1 = q'.1 := by injection h
              simp [Except.map, this]
    · rw [if_neg hc, if_neg hc]

theorem multiLoop_ok (R : Rng G K) (tool : Tool K (List K) M Tree Args) (args : Args) (seed : Option Int) :
    ∀ (n i : Nat) (s s' : Session G K M Tree) (ts : List Tree), multiLoop R tool args seed n i s = .ok (ts, s') → checkInit s.st.scen = true →
      ts.length = n ∧ s'.past = s.past ++ ts ∧ s'.st = s.st ∧
      ∀ (j : Nat) (t : Tree), ts[j]? = some t → ∃ s1 : Session G K M Tree, s1.st = s.st ∧ s1.past = s.past ++ ts.take j ∧
        (simulate R tool s1 args (seed.map (· + ((i + j : Nat) : Int)))).map Prod.fst = .ok t
  | 0, i, s, s', ts, h, _ => by
    injection h with h
    injection h with h1 h2
    subst h1 h2
    exact ⟨rfl, by simp, rfl, fun j t ht => by simp at ht⟩
  | n + 1, i, s, s', ts, h, hc => by
    unfold multiLoop at h
    obtain ⟨⟨t0, s1⟩, h1, h⟩ := (bind_ok_iff _ _ _).1 h
    obtain ⟨⟨ts', s2⟩, h2, he⟩ := (map_ok_iff _ _ _).1 h
    injection he with he1 he2
    subst he1 he2
    obtain ⟨st, pts, root, hst, hc', -, -, -, hpast, hst', -⟩ := simulate_ok h1
    have hst1 : s1.st = s.st := by
      rw [getInit_checked hc] at hst
      injection hst with hst
      rw [hst', hst]
    obtain ⟨l1, l2, l3, l4⟩ := multiLoop_ok R tool args seed n (i + 1) s1 s2 ts' h2 (by rw [hst1]; exact hc)
    refine ⟨by simp [l1], ?_, l3.trans hst1, ?_⟩
    · rw [l2, hpast]; simp
    · intro j t ht
      cases j with
      | zero =>
        simp only [List.getElem?_cons_zero, Option.some.injEq] at ht
        subst ht
        refine ⟨s, rfl, by simp, ?_⟩
        simp only [Nat.add_zero]
        rw [h1]; rfl
      | succ j =>
        simp only [List.getElem?_cons_succ] at ht
        obtain ⟨s3, e1, e2, e3⟩ := l4 j t ht
        refine ⟨s3, e1.trans hst1, ?_, ?_⟩
        · rw [e2, hpast]; simp
        · rw [show i + (j + 1) = i + 1 + j by omega]; exact e3

/-- **C88**, `simulate_multi` without given initial states: it returns `num_sims` trees and records them in this order. The `i`-th of them is what `simulate` with seed
`seed + i` returns when the trees before it are recorded. -/
theorem C88_multi (R : Rng G K) (tool : Tool K (List K) M Tree Args) (s s' : Session G K M Tree) (args : Args) (seed : Option Int) (n : Nat) (ts : List Tree)
    (run : simulateMulti R tool s args none seed n = .ok (ts, s')) :
    ts.length = n ∧ s'.past = s.past ++ ts ∧
    (∀ (i : Nat) (t : Tree), ts[i]? = some t → ∃ s1 : Session G K M Tree, getInit s.st = .ok s1.st ∧ s1.past = s.past ++ ts.take i ∧
      (simulate R tool s1 args (seed.map (· + (i : Int)))).map Prod.fst = .ok t) ∧
    (∀ k, seed = some k → Memoryless tool → ∀ (i : Nat) (t : Tree), ts[i]? = some t → (simulate R tool s args (some (k + i))).map Prod.fst = .ok t) := by
  unfold simulateMulti at run
  obtain ⟨st, hst, run⟩ := (bind_ok_iff _ _ _).1 run
  by_cases hc : checkInit st.scen = true
  · rw [if_pos hc] at run
    obtain ⟨h1, h2, -, h4⟩ := multiLoop_ok R tool args seed n 0 _ s' ts run hc
    have h5 : ∀ (i : Nat) (t : Tree), ts[i]? = some t → ∃ s1 : Session G K M Tree, getInit s.st = .ok s1.st ∧ s1.past = s.past ++ ts.take i ∧
        (simulate R tool s1 args (seed.map (· + (i : Int)))).map Prod.fst = .ok t := by
      intro i t ht
      obtain ⟨s1, e1, e2, e3⟩ := h4 i t ht
      rw [Nat.zero_add] at e3
      exact ⟨s1, by rw [e1]; exact hst, e2, e3⟩
    refine ⟨h1, h2, h5, ?_⟩
    rintro k rfl hm i t ht
    obtain ⟨s1, e1, -, e3⟩ := h5 i t ht
    have hsame : simulate R tool s args (some (k + i)) = simulate R tool { s with st := st } args (some (k + i)) := by
      unfold simulate
      dsimp only
      rw [hst, getInit_checked hc]
    rw [hsame, C88_seed_plain R tool hm { s with st := st } s1 (by rw [hst] at e1; injection e1) args (k + i)]
    exact e3
  · rw [if_neg hc] at run; cases run

theorem givenLoop_ok (tool : Tool K (List K) M Tree Args) (args : Args) :
    ∀ (is : List (Dict String (List K))) (s s' : Session G K M Tree) (ts : List Tree), givenLoop tool args is s = .ok (ts, s') →
      ts.length = is.length ∧ s'.past = s.past ++ ts ∧
      ∀ (j : Nat) (t : Tree), ts[j]? = some t → ∃ (root : Root K (List K)) (m m' : M), is[j]? = some root.init ∧ mkRoot s.st.scen root.init = .ok root ∧
        tool m root args (s.past.length + j) (s.past ++ ts.take j) = .ok (t, m')
  | [], s, s', ts, h => by
    injection h with h
    injection h with h1 h2
    subst h1 h2
    exact ⟨rfl, by simp, fun j t ht => by simp at ht⟩
  | init :: is, s, s', ts, h => by
    unfold givenLoop at h
    obtain ⟨root, hr, h⟩ := (bind_ok_iff _ _ _).1 h
    obtain ⟨⟨t0, s1⟩, h1, h⟩ := (bind_ok_iff _ _ _).1 h
    obtain ⟨⟨ts', s2⟩, h2, he⟩ := (map_ok_iff _ _ _).1 h
    injection he with he1 he2
    subst he1 he2
    obtain ⟨r1, r2, r3, -⟩ := runTool_ok h1
    obtain ⟨l1, l2, l3⟩ := givenLoop_ok tool args is s1 s2 ts' h2
    have hin := (mkRoot_init hr).1
    refine ⟨by simp [l1], by rw [l2, r2]; simp, ?_⟩
    intro j t ht
    cases j with
    | zero =>
      simp only [List.getElem?_cons_zero, Option.some.injEq] at ht
      subst ht
      exact ⟨root, s.tool, s1.tool, by simp [hin], by rw [hin]; exact hr, by simpa using r1⟩
    | succ j =>
      simp only [List.getElem?_cons_succ] at ht
      obtain ⟨root', m, m', e1, e2, e3⟩ := l3 j t ht
      refine ⟨root', m, m', by simpa using e1, by rw [r3] at e2; exact e2, ?_⟩
      rw [r2] at e3
      simp only [List.length_append, List.length_cons, List.length_nil, List.append_assoc, List.cons_append, List.nil_append] at e3
      rw [show s.past.length + (j + 1) = s.past.length + (0 + 1) + j by omega]
      simpa using e3

/-- **C88**, `simulate_multi` with given initial states: one tree for each of them, in this order; the `i`-th starts exactly in the `i`-th given state, with the modes and
parameters of the scenario. (The given states are not compared with the initial sets.) -/
theorem C88_multi_given (R : Rng G K) (tool : Tool K (List K) M Tree Args) (s s' : Session G K M Tree) (args : Args) (seed : Option Int) (n : Nat) (ts : List Tree)
    (inits : List (Dict String (List K))) (run : simulateMulti R tool s args (some inits) seed n = .ok (ts, s')) :
    ts.length = inits.length ∧ s'.past = s.past ++ ts ∧
    ∀ (i : Nat) (t : Tree), ts[i]? = some t → ∃ (root : Root K (List K)) (m m' : M), inits[i]? = some root.init ∧
      tool m root args (s.past.length + i) (s.past ++ ts.take i) = .ok (t, m') ∧
      ∀ id x rows mode static uncertain, Dict.get? root.init id = some x → Knows s.st id rows mode static uncertain → RootIs root id x mode static uncertain := by
  unfold simulateMulti at run
  obtain ⟨st, hst, run⟩ := (bind_ok_iff _ _ _).1 run
  by_cases hc : checkInit st.scen = true
  · rw [if_pos hc] at run
    obtain ⟨h1, h2, h3⟩ := givenLoop_ok tool args inits _ s' ts run
    refine ⟨h1, h2, fun i t ht => ?_⟩
    obtain ⟨root, m, m', e1, e2, e3⟩ := h3 i t ht
    refine ⟨root, m, m', e1, e3, fun id x rows mode static uncertain hx hk => ?_⟩
    obtain ⟨-, k2, k3, k4⟩ := fold_knows hst hk
    exact mkRoot_is e2 hx k2 k3 k4
  · rw [if_neg hc] at run; cases run

/-- C88 fails, combinations of initial states: with a seed, two agents with the same initial rectangle always start in the same state, because the generator is seeded
again for every agent. So no other combination of their states is ever simulated. -/
theorem C88_combinations_violated (R : Rng G K) (tool : Tool K (List K) M Tree Args) (s s' : Session G K M Tree) (args : Args) (k : Int) (t : Tree)
    (run : simulate R tool s args (some k) = .ok (t, s')) (a b : String) (rows : List (List K)) (ma sa ua mb sb ub : List MVal)
    (ha : Knows s.st a rows ma sa ua) (hb : Knows s.st b rows mb sb ub) :
    ∃ (root : Root K (List K)) (x : List K), tool s.tool root args s.past.length s.past = .ok (t, s'.tool) ∧ Dict.get? root.init a = some x ∧
      Dict.get? root.init b = some x := by
  obtain ⟨st, pts, root, hst, -, hp, hr, ht, -, -, -⟩ := simulate_ok run
  obtain ⟨⟨m, h1, h2⟩, -⟩ := fold_knows hst ha
  obtain ⟨⟨m', h1', h2'⟩, -⟩ := fold_knows hst hb
  obtain ⟨g0, x, hx, hg⟩ := mapDictG_get hp h1
  obtain ⟨g0', x', hx', hg'⟩ := mapDictG_get hp h1'
  have e : x = x' := by
    unfold rowsOf at hx hx'
    rw [h2] at hx
    rw [h2'] at hx'
    have hx : sample R (some k) rows g0 = .ok x := hx
    have hx' : sample R (some k) rows g0' = .ok x' := hx'
    rw [sample_seeded g0 g0', hx'] at hx
    injection hx with hx
    exact hx.symm
  subst e
  refine ⟨root, x.1, ht, ?_, ?_⟩
  · rw [(mkRoot_init hr).1]; exact hg
  · rw [(mkRoot_init hr).1]; exact hg'

/-! ### Concrete cases -/

namespace SessionEx

/-- A generator that counts how often it was asked; the numbers are in `[0, 1)`. -/
def R : Rng Nat ℚ := ⟨fun s => s, fun n g => (List.replicate n (1 / (g + 2 : ℚ)), g + 1)⟩

theorem fair : Fair R := by
  intro n g
  refine ⟨by simp [R], fun u hu => ?_⟩
  simp only [R, List.mem_replicate] at hu
  rw [hu.2]
  have : (0 : ℚ) ≤ g := Nat.cast_nonneg g
  constructor
  · positivity
  · rw [div_lt_one (by linarith)]; linarith

/-- A tool whose trees are the initial states. -/
def tool : Tool ℚ (List ℚ) Unit (Dict String (List ℚ)) Unit := fun _ root _ _ _ => .ok (root.init, ())

def agent : Agent MVal := ⟨some (2, 1), none, none, [], []⟩

def st0 : St ℚ MVal :=
  ⟨⟨[[0, 0], [1, 1], [5, 5]], [[0, 1], [2]]⟩, ⟨[("car", agent), ("bus", agent)], [], [], [("car", []), ("bus", [])], [("car", []), ("bus", [])]⟩⟩

/-- The car starts in the unit square, the bus at (5, 5). -/
def given : List (Given MVal) := [⟨0, [.enum "Fast"], [.enum "Car"], []⟩, ⟨1, [.str "Slow"], [], []⟩]

/-- Both start in the unit square. -/
def both : List (Given MVal) := [⟨0, [.enum "Fast"], [], []⟩, ⟨0, [.str "Slow"], [], []⟩]

def session (st : St ℚ MVal) : Session Nat ℚ Unit (Dict String (List ℚ)) := ⟨st, [], 7, ()⟩

/-- An agent with an initial condition of its own, set after it was added. -/
def late : St ℚ MVal := ⟨⟨[[0, 0]], [[0]]⟩, ⟨[("car", ⟨some (2, 1), some 0, some [.enum "Fast"], [], []⟩)], [], [], [("car", [])], [("car", [])]⟩⟩

/-- The modes and parameters of the roots are visible in the trees of this tool. -/
def verTool : Tool ℚ (List (List (List ℚ))) Unit (Dict String (List (List (List ℚ))) × Dict String (List String)) Unit := fun _ root _ _ _ => .ok ((root.init, root.mode), ())

end SessionEx

open SessionEx

/-- The hypotheses of `C88_given`, `C88_start`, `C88_multi` and `C88_multi_given` are met. -/
example : ((setInit st0 given).bind fun st => (simulate R tool (session st) () none).map fun r => (r.1, r.2.past.length, r.2.rng)) =
      .ok ([("car", [1 / 9, 1 / 9]), ("bus", [5, 5])], 1, 9) ∧
    ((setInit st0 given).bind fun st => (simulateMulti R tool (session st) () none (some 3) 2).map fun r => (r.1, r.2.past.length)) =
      .ok ([[("car", [1 / 5, 1 / 5]), ("bus", [5, 5])], [("car", [1 / 6, 1 / 6]), ("bus", [5, 5])]], 2) ∧
    ((setInit st0 given).bind fun st => (simulateMulti R tool (session st) () (some [[("car", [2, 2]), ("bus", [3, 3])]]) none 10).map fun r => r.1) =
      .ok [[("car", [2, 2]), ("bus", [3, 3])]] := by
  decide +kernel

/-- The tool has no memory (as `C88_seed_plain` asks). -/
example : Memoryless tool := fun _ _ _ _ _ _ _ _ => rfl

set_option synthInstance.maxSize 1000 in
/-- The hypotheses of `C88_verify` are met. -/
example : ((setInit st0 given).bind fun st => (verify verTool (⟨st, [], 7, ()⟩ : Session Nat ℚ Unit _) ()).map fun r => r.1) =
    .ok ([("car", [[[0, 0], [1, 1]]]), ("bus", [[[5, 5], [5, 5]]])], [("car", ["Fast"]), ("bus", ["Slow"])]) := by
  decide +kernel

/-- Two agents in the same square: with a seed they always start in the same state; without one they do not (as this generator shows). -/
example : ((setInit st0 both).bind fun st => (simulate R tool (session st) () (some 3)).map Prod.fst) = .ok [("car", [1 / 5, 1 / 5]), ("bus", [1 / 5, 1 / 5])] ∧
    ((setInit st0 both).bind fun st => (simulate R tool (session st) () none).map Prod.fst) = .ok [("car", [1 / 9, 1 / 9]), ("bus", [1 / 10, 1 / 10])] := by
  decide +kernel

/-- C88 fails, `verify` without a simulation before: for an agent that was given its initial condition after it was added to the scenario, `simulate` uses this condition,
but `verify` raises. -/
theorem C88_verify_own_init_violated : OwnInit late "car" [[0, 0]] [.enum "Fast"] [] [] ∧
    (simulate R tool (session late) () none).map Prod.fst = .ok [("car", [0, 0])] ∧
    verify verTool (⟨late, [], 7, ()⟩ : Session Nat ℚ Unit _) () = .error "AssertionError" := by
  refine ⟨⟨by decide +kernel, _, 0, rfl, rfl, by decide +kernel, rfl, rfl, rfl⟩, by decide +kernel, ?_⟩
  unfold verify
  rw [if_neg (by decide +kernel)]

end Verif.Props
