import Verif.Proofs.Bench
import Verif.Props.Contains
import Mathlib.Tactic.Linarith
import Mathlib.Tactic.NormNum
import Mathlib.Tactic.FieldSimp

/-! # C114: experiments from the command line -/

set_option autoImplicit false

namespace Verif.Props
open Verif Verif.Spec Verif.Bench Verif.Bench.Spec

/-- **C114** (partial: `t` stays among the remaining letters, `C114_local_violated`; options of scenarios given by name, `C114_keyword_violated`). Each letter of the
first argument switches its option, and nothing else does: `i` incremental analysis, `l` parallel, `t` local, `c` comparison, `p` plots, `d` dump, `v`
verification in place of simulation. What remains are the other letters, in order; the further arguments are kept. -/
theorem C114_options_partial {W : Type} {argv : List Text} {arg : Text} (hl : Letters argv arg) {kw : Dict String W} {e : ExpConf W} (h : fromArg argv kw = .ok e) :
    (e.config.incremental = true ↔ 'i' ∈ arg) ∧ (e.config.parallel = true ↔ 'l' ∈ arg) ∧ (e.config.tryLocal = true ↔ 't' ∈ arg) ∧
    (e.compare = true ↔ 'c' ∈ arg) ∧ (e.plot = true ↔ 'p' ∈ arg) ∧ (e.dump = true ↔ 'd' ∈ arg) ∧ (e.sim = false ↔ 'v' ∈ arg) ∧
    e.config.others = kw ∧ e.kw = kw ∧ e.rest = argv.drop 2 ∧
    e.args = arg.filter (fun c => decide (c ∉ ['c', 'i', 'l', 'p', 'd', 'v'])) := by
  unfold fromArg at h
  obtain ⟨c, hc, h⟩ := (bind_ok_iff _ _ _).1 h
  simp only [Except.ok.injEq] at h
  subst h
  unfold sconf at hc
  split at hc
  · injection hc with hc
    subst hc
    rw [erase_fold]
    have hf : ∀ x : Text, x.filter (fun c => !['c', 'i', 'l', 'p', 'd', 'v'].contains c) = x.filter (fun c => decide (c ∉ ['c', 'i', 'l', 'p', 'd', 'v'])) := by
      intro x; congr 1; funext c; simp
    cases hl <;> simp [hf]
  · cases hc

/-- **C114**: without options by name, or with those the command line does not set, the experiment starts; the scenario gets the configuration. -/
theorem C114_start {S W : Type} (w : World S W) (argv : List Text) (kw : Dict String W)
    (hk : ∀ p ∈ kw, p.1 ∈ ["unsafe_continue", "init_seg_length", "reachability_method", "parallel_sim_ahead", "parallel_ver_ahead", "print_level", "pca"]) :
    ∃ e, fromArg argv kw = .ok e ∧ Bench.init w argv kw = .ok ⟨e, w.fresh e.config, none⟩ := by
  have hc : ∀ i l t, sconf i l t kw = .ok ⟨i, l, t, kw⟩ := by
    intro i l t
    unfold sconf
    rw [if_pos]
    rw [List.all_eq_true]
    intro p hp
    rw [List.contains_iff_mem]
    exact hk p hp
  obtain ⟨e, he⟩ : ∃ e, fromArg argv kw = .ok e := by
    unfold fromArg
    simp only [hc]
    exact ⟨_, rfl⟩
  exact ⟨e, he, by unfold Bench.init; rw [he]; rfl⟩

/-- **C114 fails** for the options that the command line sets: given by name, as in `Benchmark(argv, parallel=True)`, they are refused, whatever the value. -/
theorem C114_keyword_violated {S W : Type} (w : World S W) (argv : List Text) (kw : Dict String W) (o : String) (v : W)
    (ho : o = "incremental" ∨ o = "parallel" ∨ o = "try_local") (h : (o, v) ∈ kw) : Bench.init w argv kw = .error .typeError := by
  have hc : ∀ i l t, sconf i l t kw = .error .typeError := by
    intro i l t
    unfold sconf
    rw [if_neg]
    rw [List.all_eq_true]
    intro hall
    have := hall _ h
    rcases ho with rfl | rfl | rfl <;> exact absurd this (by simp [fields])
  unfold Bench.init fromArg
  simp only [hc]
  rfl

/-- **C114 fails** for the letter `t`: it switches its option and is left among the remaining letters, which select the variant of the experiment. -/
theorem C114_local_violated {W : Type} {argv : List Text} {arg : Text} (hl : Letters argv arg) {kw : Dict String W} {e : ExpConf W} (h : fromArg argv kw = .ok e)
    (ht : 't' ∈ arg) : e.config.tryLocal = true ∧ 't' ∈ e.args := by
  obtain ⟨-, -, h1, -, -, -, -, -, -, -, h2⟩ := C114_options_partial hl h
  refine ⟨h1.2 ht, ?_⟩
  rw [h2, List.mem_filter]
  exact ⟨ht, by decide⟩

/-- the command line `prog vitb x y` -/
example : fromArg (W := Nat) ["prog".toList, "vitb".toList, "x".toList, "y".toList] [("pca", 1)] =
    .ok ⟨⟨true, false, true, [("pca", 1)]⟩, "tb".toList, ["x".toList, "y".toList], false, false, false, false, [("pca", 1)]⟩ ∧
    Letters ["prog".toList, "vitb".toList, "x".toList, "y".toList] "vitb".toList := by
  exact ⟨by decide +kernel, .given _ _ _⟩

/-- the printed report of a finished run -/
private theorem about_of_run {S W : Type} {w : World S W} {b b' : State S W} {a : List ℚ} {kw : Dict String W} {t : RTree ATree.CNode} {p : Printed}
    (h : run w b a kw = .ok (t, b')) (hp : report b' = .ok p) : About w b.conf.sim b.conf.config.incremental b'.scn t p ∧
      ∃ a0 a1 r, a = a0 :: a1 :: r ∧ a1 ≠ 0 ∧ p.timesteps = trunc (w.fdiv a0 a1) := by
  obtain ⟨a0, a1, r, ha, hz, -, hconf, hn⟩ := run_ok h
  have hnodes : (ATree.allNodes t).length = (RTree.subs t).length := (C09_nodes t).1.length_eq
  have hleaves : ATree.leaves t = ((RTree.subs t).filter fun n => decide (n.kids = [])).length := by
    rw [(C09_leaves t).2, (C09_leaves t).1]
  obtain ⟨H, hH⟩ : ∃ H, H = (if b.conf.sim then w.simHits b'.scn else ((w.tubeHits b'.scn).1 + (w.transHits b'.scn).1, (w.tubeHits b'.scn).2 + (w.transHits b'.scn).2)) := ⟨_, rfl⟩
  rw [← hH] at hn
  unfold report at hp
  rw [hn, hconf] at hp
  simp only at hp
  split at hp
  · rename_i hi
    split at hp
    · cases hp
    · rename_i hne
      injection hp with hp
      subst hp
      refine ⟨⟨rfl, hnodes, hleaves, by simp [hi, hH], ?_⟩, a0, a1, r, ha, hz, rfl⟩
      intro h m r hr
      injection hr with hr
      injection hr with hr1 hr2
      rw [hr1] at hne hr2
      subst hr2
      have : ((h + m : ℕ) : ℚ) ≠ 0 := by exact_mod_cast hne
      simp only
      rw [← Nat.cast_add]
      field_simp
  · rename_i hi
    injection hp with hp
    subst hp
    exact ⟨⟨rfl, hnodes, hleaves, by simp [hi], by intro h m r hr; cases hr⟩, a0, a1, r, ha, hz, rfl⟩

/-- **C114** (partial: for simulation without keyword arguments, `C114_seed_violated`). `run` is the analysis that the experiment asks for, of its scenario, with the
given times and keyword arguments, and the scenario of the experiment afterwards is the one the analysis leaves. `report` then shows the number of agents, and how
many nodes and leaves the tree has. If the horizon is a multiple of the time step and the quotient exact, the number of steps shown is that multiple. -/
theorem C114_run_partial {S W : Type} (w : World S W) (b : State S W) (a : List ℚ) (kw : Dict String W) (hkw : b.conf.sim = true → kw = []) :
    (∀ t b', run w b a kw = .ok (t, b') → b'.conf = b.conf ∧ Analysed w b.conf.sim b.scn a kw t b'.scn ∧
      ∀ p, report b' = .ok p → About w b.conf.sim b.conf.config.incremental b'.scn t p ∧
        ∀ (k : ℤ) (dt : ℚ) (r : List ℚ), a = k * dt :: dt :: r → w.fdiv (k * dt) dt = k → p.timesteps = k) ∧
    (∀ t s' a0 a1 r, a = a0 :: a1 :: r → a1 ≠ 0 → Analysed w b.conf.sim b.scn a kw t s' → ∃ b', run w b a kw = .ok (t, b') ∧ b'.scn = s') := by
  constructor
  · intro t b' h
    obtain ⟨a0, a1, r, ha, hz, han, hconf, -⟩ := run_ok h
    refine ⟨hconf, ?_, ?_⟩
    · rcases han with ⟨h1, h2⟩ | h2
      · exact .inl ⟨h1, by rw [hkw h1]; exact h2⟩
      · exact .inr h2
    · intro p hp
      obtain ⟨h1, b0, b1, r', hb, -, ht⟩ := about_of_run h hp
      refine ⟨h1, ?_⟩
      intro k dt q hq hk
      rw [hb] at hq
      injection hq with e1 e2
      injection e2 with e2 e3
      rw [ht, e1, e2, hk, trunc_int]
  · intro t s' a0 a1 r ha hz han
    subst ha
    obtain ⟨n, hn⟩ := run_eq (w := w) (b := b) (r := r) (kw := kw) (t := t) (s' := s') (a0 := a0) hz (by
      rcases han with ⟨h1, h2⟩ | h2
      · exact .inl ⟨h1, by rw [hkw h1] at h2; exact h2⟩
      · exact .inr h2)
    exact ⟨_, hn, rfl⟩

/-- **C114 fails** for keyword arguments of simulations: `run(…, seed=4)` does not pass the seed on, so simulations with different seeds, or without, are the
same call. -/
theorem C114_seed_violated {S W : Type} (w : World S W) (b : State S W) (hs : b.conf.sim = true) (a : List ℚ) (kw kw' : Dict String W) :
    run w b a kw = run w b a kw' := by
  unfold run analyse
  rw [hs]
  rfl

/-- **C114 fails** for the number of time steps: with horizon `0.3` and time step `0.1`, as floats, it is 2, whatever way the quotient is rounded to a nearest float
(floats near 3 are `2⁻⁵¹` apart). -/
theorem C114_timesteps_violated (q : ℚ) (h : |q - (5404319552844595 / 2 ^ 54 : ℚ) / (3602879701896397 / 2 ^ 55)| ≤ 1 / 2 ^ 52) : trunc q = 2 := by
  rw [abs_le] at h
  norm_num at h
  obtain ⟨h1, h2⟩ := h
  unfold trunc
  rw [if_pos (by linarith)]
  rw [Int.floor_eq_iff]
  constructor
  · push_cast; linarith
  · push_cast; linarith

/-- the numbers are the floats nearest to 0.3 and 0.1: floats are multiples of `2⁻⁵⁴` and `2⁻⁵⁶` there -/
example : |(3 / 10 : ℚ) - 5404319552844595 / 2 ^ 54| ≤ 1 / 2 ^ 55 ∧ |(1 / 10 : ℚ) - 3602879701896397 / 2 ^ 55| ≤ 1 / 2 ^ 57 := by
  constructor <;> rw [abs_le] <;> constructor <;> norm_num

/-- **C114** (partial: without a second scenario, `C114_second_violated`; for simulation without keyword arguments). `compare_run` is refused unless comparison is
asked for. It returns the trees of two analyses, one after the other on the same scenario; reports on both; and the printed answers are those of `contains`. -/
theorem C114_compare_partial {S W : Type} (w : World S W) (b : State S W) (a : List ℚ) (kw : Dict String W) (hkw : b.conf.sim = true → kw = [])
    {r : Compared} {b2 : State S W} (h : compareRun w b a kw = .ok (r, b2)) :
    b.conf.compare = true ∧ b.conf.rest = [] ∧ ∃ s1, Analysed w b.conf.sim b.scn a kw r.first s1 ∧ Analysed w b.conf.sim s1 a kw r.second b2.scn ∧
      About w b.conf.sim b.conf.config.incremental s1 r.first r.report1 ∧ About w b.conf.sim b.conf.config.incremental b2.scn r.second r.report2 ∧
      ATree.contains w.rnd true w.eps r.first r.second = .ok r.contains12 ∧ ATree.contains w.rnd true w.eps r.second r.first = .ok r.contains21 := by
  unfold compareRun at h
  split at h
  · rename_i hc
    obtain ⟨⟨t1, b1⟩, hr1, h⟩ := (bind_ok_iff _ _ _).1 h
    obtain ⟨p1, hp1, h⟩ := (bind_ok_iff _ _ _).1 h
    obtain ⟨b1', hb1, h⟩ := (bind_ok_iff _ _ _).1 h
    obtain ⟨⟨t2, b2'⟩, hr2, h⟩ := (bind_ok_iff _ _ _).1 h
    obtain ⟨p2, hp2, h⟩ := (bind_ok_iff _ _ _).1 h
    obtain ⟨c12, hc12, h⟩ := (bind_ok_iff _ _ _).1 h
    obtain ⟨c21, hc21, h⟩ := (bind_ok_iff _ _ _).1 h
    simp only [Except.ok.injEq, Prod.mk.injEq] at h
    obtain ⟨rfl, rfl⟩ := h
    have hcf : b1.conf = b.conf := ((C114_run_partial w b a kw hkw).1 t1 b1 hr1).1
    have hrest : b.conf.rest = [] ∧ b1' = b1 := by
      unfold between at hb1
      rw [hcf] at hb1
      split at hb1
      · rename_i he
        injection hb1 with hb1
        exact ⟨he, hb1.symm⟩
      · cases hb1
      · exfalso
        unfold replaceScenario at hb1
        split at hb1
        · cases hb1
        · obtain ⟨c, -, hb1⟩ := (bind_ok_iff _ _ _).1 hb1
          cases hb1
    obtain ⟨hrest, rfl⟩ := hrest
    have hkw' : b1'.conf.sim = true → kw = [] := by rw [hcf]; exact hkw
    have e1 := (C114_run_partial w b a kw hkw).1 t1 b1' hr1
    have e2 := (C114_run_partial w b1' a kw hkw').1 t2 b2' hr2
    rw [hcf] at e2
    exact ⟨hc, hrest, b1'.scn, e1.2.1, e2.2.1, (e1.2.2 p1 hp1).1, (e2.2.2 p2 hp2).1, liftC_ok hc12, liftC_ok hc21⟩
  · cases h

/-- **C114 / C11** (partial: as `C114_compare_partial` and `C11_contains_iff_partial`). When both trees are verification trees on the grid of the time step over the
same horizon, agents and dimensions, the printed answers say which tree covers which, up to the tolerance. -/
theorem C114_answers_partial {S W : Type} (w : World S W) (b : State S W) (a : List ℚ) (kw : Dict String W) (hkw : b.conf.sim = true → kw = [])
    {r : Compared} {b2 : State S W} (hr : compareRun w b a kw = .ok (r, b2)) (h T : ℚ) (cont : Nat) (ty : ATree.NType) (ht : 0 ≤ w.eps) (hh : 0 < h)
    (h10 : w.rnd.r10 h = h) (hint : ∀ z : ℤ, w.rnd.int z = z) (hs : r.first.label.start = r.second.label.start)
    (hty1 : ∀ u ∈ RTree.subs r.first, u.label.ntype = ty) (hty2 : ∀ u ∈ RTree.subs r.second, u.label.ntype = ty)
    (hag : r.first.label.agents = r.second.label.agents) (hne : r.second.label.agents ≠ [])
    (h1 : OnGrid h T r.second.label.agents cont r.first) (h2 : OnGrid h T r.second.label.agents cont r.second) :
    (r.contains12 = true ↔ ∀ x ∈ r.second.label.agents, ∀ i j v, j < cont → Covers h r.second x i j v → ∃ y, Covers h r.first x i j y ∧ |v - y| ≤ w.eps) ∧
    (r.contains21 = true ↔ ∀ x ∈ r.second.label.agents, ∀ i j v, j < cont → Covers h r.first x i j v → ∃ y, Covers h r.second x i j y ∧ |v - y| ≤ w.eps) := by
  obtain ⟨-, -, s1, -, -, -, -, c12, c21⟩ := C114_compare_partial w b a kw hkw hr
  obtain ⟨x, e1, f1⟩ := C11_contains_iff_partial w.rnd true w.eps h T T r.first r.second cont ty ht hh h10 hint (le_refl _) hs hty1 hty2 (fun a => by rw [hag]) hne h1 h2
  obtain ⟨y, e2, f2⟩ := C11_contains_iff_partial w.rnd true w.eps h T T r.second r.first cont ty ht hh h10 hint (le_refl _) hs.symm hty2 hty1
    (fun a => by rw [hag]) (hag ▸ hne) (hag ▸ h2) (hag ▸ h1)
  rw [c12] at e1
  rw [c21] at e2
  injection e1 with e1
  injection e2 with e2
  rw [e1, e2, f1, f2, hag]
  exact ⟨Iff.rfl, Iff.rfl⟩

/-- **C114 fails** for a second scenario on the command line: whatever the further arguments are, `compare_run` ends with an exception, after the first run. -/
theorem C114_second_violated {S W : Type} (w : World S W) (b : State S W) (a : List ℚ) (kw : Dict String W) (hrest : b.conf.rest ≠ []) :
    ∃ e, compareRun w b a kw = .error e := by
  cases hc : compareRun w b a kw with
  | error e => exact ⟨e, rfl⟩
  | ok r =>
    exfalso
    unfold compareRun at hc
    split at hc
    · obtain ⟨⟨t1, b1⟩, hr1, hc⟩ := (bind_ok_iff _ _ _).1 hc
      obtain ⟨p1, hp1, hc⟩ := (bind_ok_iff _ _ _).1 hc
      obtain ⟨b1', hb1, hc⟩ := (bind_ok_iff _ _ _).1 hc
      obtain ⟨a0, a1, q, -, -, -, hconf, -⟩ := run_ok hr1
      unfold between at hb1
      rw [hconf] at hb1
      split at hb1
      · rename_i he; exact hrest he
      · cases hb1
      · unfold replaceScenario at hb1
        split at hb1
        · cases hb1
        · obtain ⟨c, -, hb1⟩ := (bind_ok_iff _ _ _).1 hb1
          cases hb1
    · cases hc

/-- **C114** (partial: the letter `t`, `C114_replace_violated`). After `replace_scenario` the experiment runs the new scenario, with the options that the
letters of the second argument switch, and with the same options by name. -/
theorem C114_replace_partial {S W : Type} (w : World S W) (argv : List Text) (kw : Dict String W) (e : ExpConf W) (he : fromArg argv kw = .ok e) (b : State S W)
    (hb : b.conf = e) (arg : Text) (rest : List Text) (hr : b.conf.rest = arg :: rest) (s : S) :
    ∃ b', replaceScenario w b (.inl s) = .ok b' ∧ b'.scn = w.configure b'.conf.config s ∧ (b'.conf.config.incremental = true ↔ 'i' ∈ arg) ∧
      (b'.conf.config.parallel = true ↔ 'l' ∈ arg) ∧ b'.conf.config.others = kw ∧ b'.conf.sim = b.conf.sim ∧ b'.conf.compare = b.conf.compare ∧ b'.conf.rest = b.conf.rest := by
  have hk : sconf (arg.contains 'i') (arg.contains 'l') false b.conf.kw = .ok ⟨arg.contains 'i', arg.contains 'l', false, kw⟩ := by
    rw [hb]
    unfold fromArg at he
    obtain ⟨c, hc, he⟩ := (bind_ok_iff _ _ _).1 he
    simp only [Except.ok.injEq] at he
    subst he
    unfold sconf at hc ⊢
    simp only
    split at hc
    · rename_i hall; rw [if_pos hall]
    · cases hc
  unfold replaceScenario
  rw [hr]
  simp only [hk]
  exact ⟨_, rfl, rfl, by simp, by simp, rfl, rfl, rfl, hr⟩

/-- **C114 fails** for the letter `t` of the second argument: it is not looked at. -/
theorem C114_replace_violated {S W : Type} (w : World S W) (b b' : State S W) (s : S) (h : replaceScenario w b (.inl s) = .ok b') : b'.conf.config.tryLocal = false := by
  unfold replaceScenario at h
  split at h
  · cases h
  · obtain ⟨c, hc, h⟩ := (bind_ok_iff _ _ _).1 h
    simp only [Except.ok.injEq] at h
    subst h
    unfold sconf at hc
    split at hc
    · injection hc with hc
      subst hc
      rfl
    · cases hc

namespace BenchEx

/-- a tube of one step of the agent `car`, in `[0, 1]` or, for the scenario afterwards, in `[0, hi]` -/
def tree (hi : ℚ) : RTree ATree.CNode := .node ⟨["car"], [("car", [[0, 0], [1, hi]])], 0, .reach⟩ []

/-- a scenario counts lookups; each verification looks two things up, and finds them from the second time on -/
def w : World (Nat × Nat) Nat :=
  ⟨fun _ => (0, 0), fun _ s => s, fun s _ kw => .ok (tree kw.length, s), fun s _ _ => .ok (tree 1, if s.2 = 0 then (0, 2) else (s.1 + 2, s.2)),
    fun _ => 1, fun s => s, fun s => s, fun _ => (0, 0), fun x y => x / y, ⟨id, fun q => ⌊q⌋⟩, 1 / 1000⟩

/-- the experiment `prog civ` -/
def b : State (Nat × Nat) Nat := ⟨⟨⟨true, false, false, []⟩, [], [], true, false, false, false, []⟩, (0, 0), none⟩

/-- a seed reaches `simulate` directly, but not through `run` -/
example : w.simulate (0, 0) [2, 1] [("seed", 4)] = .ok (tree 1, (0, 0)) ∧ w.simulate (0, 0) [2, 1] [] = .ok (tree 0, (0, 0)) ∧ tree 1 ≠ tree 0 := by
  refine ⟨rfl, rfl, ?_⟩
  intro h
  injection h with h
  injection h with _ h
  revert h
  decide +kernel

theorem nodes (x : ℚ) : ATree.allNodes (tree x) = [tree x] := by
  unfold ATree.allNodes
  rw [ATree.bfs]
  rw [show ([] : List (RTree ATree.CNode)) ++ (tree x).kids = [] from rfl, ATree.bfs]

theorem leaf (x : ℚ) : ATree.leaves (tree x) = 1 := by
  unfold ATree.leaves
  rw [nodes]
  rfl

theorem same : ATree.contains w.rnd true w.eps (tree 1) (tree 1) = .ok true := by
  unfold ATree.contains
  rw [nodes]
  decide +kernel

theorem run1 : run w b [2, 1] [] = .ok (tree 1, ⟨b.conf, (0, 2), some ⟨1, 1, 1, 2, (0, 2)⟩⟩) := by
  unfold run
  simp only [show ¬ (1 : ℚ) = 0 by decide, if_false]
  rw [show analyse w b.conf.sim b.scn [2, 1] [] = .ok (tree 1, (0, 2)) from rfl]
  simp only [bind, Except.bind, nodes, leaf]
  rw [show trunc (w.fdiv 2 1) = 2 by decide +kernel]
  rfl

theorem run2 (n : Option Numbers) : run w ⟨b.conf, (0, 2), n⟩ [2, 1] [] = .ok (tree 1, ⟨b.conf, (2, 2), some ⟨1, 1, 1, 2, (2, 2)⟩⟩) := by
  unfold run
  simp only [show ¬ (1 : ℚ) = 0 by decide, if_false]
  rw [show analyse w b.conf.sim (0, 2) [2, 1] [] = .ok (tree 1, (2, 2)) from rfl]
  simp only [bind, Except.bind, nodes, leaf]
  rw [show trunc (w.fdiv 2 1) = 2 by decide +kernel]
  rfl

theorem compared : ∃ b2, compareRun w b [2, 1] [] = .ok (⟨tree 1, tree 1, ⟨1, 1, 1, 2, some ((0, 2), 0)⟩, ⟨1, 1, 1, 2, some ((2, 2), 50)⟩, true, true⟩, b2) := by
  refine ⟨⟨b.conf, (2, 2), some ⟨1, 1, 1, 2, (2, 2)⟩⟩, ?_⟩
  unfold compareRun
  rw [if_pos (by rfl), run1]
  simp only [bind, Except.bind]
  rw [show report (⟨b.conf, (0, 2), some ⟨1, 1, 1, 2, (0, 2)⟩⟩ : State (Nat × Nat) Nat) = .ok ⟨1, 1, 1, 2, some ((0, 2), 0)⟩ by decide +kernel]
  rw [show between w ⟨b.conf, (0, 2), some ⟨1, 1, 1, 2, (0, 2)⟩⟩ = .ok ⟨b.conf, (0, 2), some ⟨1, 1, 1, 2, (0, 2)⟩⟩ from rfl]
  simp only [run2]
  rw [show report (⟨b.conf, (2, 2), some ⟨1, 1, 1, 2, (2, 2)⟩⟩ : State (Nat × Nat) Nat) = .ok ⟨1, 1, 1, 2, some ((2, 2), 50)⟩ by decide +kernel]
  simp only [same, liftC]

/-- the command line `prog civ` gives this experiment -/
example : fromArg ["prog".toList, "civ".toList] [] = .ok b.conf := by decide +kernel

/-- with a second argument the comparison ends with an exception -/
example : ∃ e, compareRun w ⟨{ b.conf with rest := ["i".toList, "x".toList] }, (0, 0), none⟩ [2, 1] [] = .error e :=
  C114_second_violated _ _ _ _ (by decide)

/-- another scenario is put in place, with the letters `it` -/
example : ∃ e b', fromArg ["prog".toList, "civ".toList, "it".toList] ([] : Dict String Nat) = .ok e ∧ replaceScenario w ⟨e, (0, 0), none⟩ (.inl (5, 5)) = .ok b' ∧
    b'.scn = (5, 5) ∧ b'.conf.config = ⟨true, false, false, []⟩ := by
  refine ⟨⟨⟨true, false, false, []⟩, [], ["it".toList], true, false, false, false, []⟩, _, by decide +kernel, rfl, rfl, rfl⟩

end BenchEx
open BenchEx

/-- **C114 fails** for the cache hits of a run: the counts are those of all runs so far. In the second run of this comparison every lookup is a hit, and the
report says half of them are. -/
theorem C114_hits_violated : w.tubeHits (0, 0) = (0, 0) ∧ (∃ t, w.verify (0, 0) [2, 1] [] = .ok (t, (0, 2))) ∧ (∃ t, w.verify (0, 2) [2, 1] [] = .ok (t, (2, 2))) ∧
    ∃ r b2, compareRun w b [2, 1] [] = .ok (r, b2) ∧ r.report2.cache = some ((2, 2), 50) := by
  obtain ⟨b2, h⟩ := compared
  exact ⟨rfl, ⟨_, rfl⟩, ⟨_, rfl⟩, _, b2, h, rfl⟩

end Verif.Props
