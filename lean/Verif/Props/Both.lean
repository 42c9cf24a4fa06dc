import Verif.Proofs.Both
import Verif.Props.Execution

/-!
C79: what `simulate` finds, `verify` contains. The specification of "the same scenario" is in `Spec/Both.lean`.
-/

set_option autoImplicit false
set_option linter.unusedSectionVars false

namespace Verif.Props

open Verif.Both Verif.Proofs.Both Verif.Rect.Spec Verif.Rst.Spec
open Verif.Ver.Spec (Phase PathIn Execution Starts Tracks SoundTubes NodeOK Visited)

section
variable {Env U S G K V D : Type} [Field K] [LinearOrder K] [DecidableEq U] [DecidableEq V]

theorem contains_of {num : K → U} {sym : V → U} {sw : Sim.World Env U} {vb : Ver.Body S G K V D} {dt : ℚ} {N : Nat} {g : Nat}
    {ex : List (Phase K V × Nat)} {us : List (Verif.Spec.Label (Sim.Body Env U) (Sim.Trace U) Sim.Hits)}
    (h : Shown num sym sw vb dt N g ex us) : ∀ {vs : List (Verif.Spec.Label (Ver.Body S G K V D) (Ver.Trace K) Ver.Hits)},
    Tracks (vb.agents.map Prod.fst) dt N g ex vs → List.Forall₂ (Contains num sym sw (vb.agents.map Prod.fst) ((N : ℚ) * dt)) us vs := by
  induction h with
  | nil => intro vs ht; cases ht; exact .nil
  | @cons g φ n rest us u h1 h2 _ ih =>
    intro vs ht
    cases ht with
    | @cons _ _ _ _ vs v k1 k2 k3 =>
      refine .cons ⟨?_, ?_⟩ (ih k3)
      · intro a ha
        refine ⟨_, k1 a ha, ?_⟩
        obtain ⟨x, hx, rfl⟩ := List.mem_map.1 ha
        exact h1 x hx
      · intro k sd hs hq x hx ht
        obtain ⟨g1, g2, g3, a, ha, g4, g5⟩ := h2 k sd hs hq x hx ht
        obtain ⟨segs, s1, s, s2, s3, s4⟩ := k2 k g1 g2 a.1 (List.mem_map_of_mem (f := Prod.fst) ha)
        exact ⟨segs, s, _, by rw [g4]; exact s1, s2, by rw [s3, g3], g5, s4⟩

/-- **C79**, in part. `simulate` and `verify` are called for the same scenario, with time step `dt` and time horizon `N * dt`; the simulation begins in
the initial set, and single agents are simulated along trajectories that their reachable sets contain. Every path of the tree that `simulate` returns,
on which two agents never switch at the same time, has a path in the tree that `verify` returns, with the same modes, whose rectangles contain
all the simulated states, at their times.

Missing: two agents that switch at the same time (`C79_together_violated`), and what is missing from `C55_covers_partial`. -/
theorem C79_simulations_covered_partial (num : K → U) (sym : V → U) (hnum : Function.Injective num) (hsym : Function.Injective sym)
    (M : Ver.Spec.Meaning S G K V D) (vw : Ver.World S K V) (vb : Ver.Body S G K V D) (sw : Sim.World Env U) (sb : Sim.Body Env U)
    (same : SameScenario num sym M vw vb sw sb) (flow : String → List V → (Nat → List K) → Prop) (dt : ℚ) (N : Nat) (hdt : 0 < dt)
    -- `simulate`
    (hsim : SimulatesFlow num sym sw flow dt N) (scfg : Engine.Cfg (Sim.Body Env U) (Sim.Trace U) Sim.Hits) (st : SimTree Env U)
    (hst : Simulated sw scfg sb st) (hshor : scfg.horizon = (N : ℚ) * dt)
    (hsround : ∀ k : Nat, scfg.round10 ((k : ℚ) * dt) = (k : ℚ) * dt ∧ scfg.roundN ((k : ℚ) * dt) = (k : ℚ) * dt)
    -- `verify`
    (wf : Ver.Spec.Body.WF vb) (d : String → Nat) (cfg : Engine.Cfg (Ver.Body S G K V D) (Ver.Trace K) Ver.Hits)
    (t : Verif.Spec.RTree (Verif.Spec.Label (Ver.Body S G K V D) (Ver.Trace K) Ver.Hits))
    (hdim : ∀ a ∈ vb.agents, ∀ rs, Dict.get? vb.init a.1 = some rs → ∀ r ∈ rs, r.1.length = d a.1 ∧ r.2.length = d a.1)
    (hsound : SoundTubes vw flow dt N d) (hseg : vw.segLen = 1)
    (hround : ∀ k : Nat, vw.round10 ((k : ℚ) * dt) = (k : ℚ) * dt ∧ cfg.round10 ((k : ℚ) * dt) = (k : ℚ) * dt ∧ cfg.roundN ((k : ℚ) * dt) = (k : ℚ) * dt)
    (hkind : cfg.kind = .ver) (hcfg : cfg.step = Ver.verStep vw) (hhor : cfg.horizon = (N : ℚ) * dt)
    (hret : Verif.Spec.Returned cfg vb [] t) (hsafe : ∀ u k, Verif.Spec.RTree.Below t u k → u.label.hits = .ok none)
    (hok : ∀ n full, Visited vw cfg vb n → Ver.fillTubes vw n.body n.start (cfg.round10 (cfg.horizon - n.start)) n.trace = .ok full → NodeOK M vw n full)
    -- a path of the simulator's tree
    (us : List (Verif.Spec.Label (Sim.Body Env U) (Sim.Trace U) Sim.Hits)) (hus : PathIn st us) (hone : ∀ u ∈ us.dropLast, OneAtATime sw u)
    (hbefore : ∀ u ∈ us, u.start < (N : ℚ) * dt) (hheight : ∀ mh, cfg.maxHeight = some mh → us.length < mh) :
    ∃ vs, PathIn t vs ∧ List.Forall₂ (Contains num sym sw (vb.agents.map Prod.fst) ((N : ℚ) * dt)) us vs := by
  have hnames : (vb.agents.map Prod.fst).Nodup := wf.names
  have hroot : ∀ a : String, ∃ (m : List V) (ρ : Nat → List K), ∀ dl, (a, dl) ∈ vb.agents →
      Dict.get? vb.mode a = some m ∧ Dict.get? sb.mode a = some (m.map sym) ∧ m.length = dl.disc.length ∧ flow a m ρ ∧
      Dict.get? sb.init a = some ((ρ 0).map num) ∧ (∃ r, Dict.get? vb.init a = some [r] ∧ Inside (ρ 0) r) ∧ (∀ k, (ρ k).length = dl.cont.length) ∧
      ∀ (j : Nat) (row : Sim.Row U), (sw.sim a (m.map sym) ((ρ 0).map num) (((N - 0 : Nat) : ℚ) * dt))[j]? = some row →
        row = ⟨(j : ℚ) * dt, (ρ j).map num⟩ := by
    intro a
    by_cases h : ∃ dl, (a, dl) ∈ vb.agents
    · obtain ⟨dl, hdl⟩ := h
      obtain ⟨m, m1, m2, m3⟩ := same.mode _ hdl
      obtain ⟨x, r, x1, x2, x3, x4⟩ := same.init _ hdl
      obtain ⟨ρ, r1, r2, r3, r4⟩ := hsim a m x 0
      refine ⟨m, ρ, ?_⟩
      intro dl' hdl'
      have e1 := Dict.get?_of_mem hnames hdl
      rw [Dict.get?_of_mem hnames hdl'] at e1
      injection e1 with e1
      subst e1
      exact ⟨m1, m2, m3, r1, by rw [r2]; exact x1, ⟨r, x2, by rw [r2]; exact x3⟩, fun k => by rw [r3]; exact x4, by rw [r2]; exact r4⟩
    · exact ⟨[], fun _ => [], fun dl hdl => absurd ⟨dl, hdl⟩ h⟩
  choose mode path hmp using hroot
  have h0 : scfg.roundN 0 = 0 := by
    have := (hsround 0).2
    simpa using this
  have hat : At num sym vb sw sb dt N ⟨0, scfg.roundN 0, sb, []⟩ ⟨mode, path⟩ 0 := by
    refine ⟨⟨rfl, rfl, fun a ha => (hmp a.1 a.2 ha).2.1, fun a ha => (hmp a.1 a.2 ha).2.2.1, fun a ha => (hmp a.1 a.2 ha).2.2.2.2.2.2.1⟩, ?_, ?_⟩
    · simp only; rw [h0]; simp
    · intro a ha
      exact .inr ⟨rfl, (hmp a.1 a.2 ha).2.2.2.2.1, (hmp a.1 a.2 ha).2.2.2.2.2.2.2⟩
  obtain ⟨n0, rest, h1, h2, h3⟩ := path_execution hnum hsym same hst.wf flow hdt hsim scfg hst.step hshor hsround _ us st hus _ _ 0
    (Engine.returned_explores hst.returned) hat hone hbefore
  have hlen : ∀ {g : Nat} {ex : List (Phase K V × Nat)} {us : List (Verif.Spec.Label (Sim.Body Env U) (Sim.Trace U) Sim.Hits)},
      Shown num sym sw vb dt N g ex us → ex.length = us.length := by
    intro g ex us h
    induction h with
    | nil => rfl
    | cons _ _ _ ih => simp only [List.length_cons, ih]
  obtain ⟨vs, v1, v2⟩ := C55_covers_partial M vw vb flow dt N d cfg t wf hdim hsound hseg hdt hround hkind hcfg hhor hret hsafe hok _ h1
    (by
      intro x hx
      simp only [List.head?_cons, Option.some.injEq] at hx
      subst hx
      intro a ha
      obtain ⟨q1, _, _, q4, _, q6, _⟩ := hmp a.1 a.2 ha
      obtain ⟨s, q7, _⟩ := same.static a ha
      exact ⟨q1, by rw [q7]; rfl, q4, q6⟩)
    (by rw [hlen h2]; exact hheight) (by simpa using h3)
  exact ⟨vs, v1, contains_of h2 v2⟩

end

end Verif.Props
