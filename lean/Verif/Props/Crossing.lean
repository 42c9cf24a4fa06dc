import Verif.Proofs.Crossing
import Verif.Proofs.Assembled6
import Verif.Props.Assembled

/-!
C55 and C80 for scenarios whose controllers switch between modes and change nothing else: what is required of the nodes of the tree is how tubes
cross guards, and nothing about the transitions that the analysis finds.
-/

set_option autoImplicit false
set_option linter.unusedSectionVars false

namespace Verif.Props

open Verif.Spec Verif.Ver.Spec Verif.Asm Verif.Asm.Spec
open Verif.Grd.Spec (Correct Complete)

section
variable {K Seg : Type} [Field K] [LinearOrder K] [IsStrictOrderedRing K]

theorem Modes.rest {T : Tools K Seg} {sc : Scenario K} {sig : String → Sig} {d : String → Nat} {w : Ver.World (Sense K) K (Grd.Val K)}
    {cfg : Engine.Cfg (Ver.Body (Sense K) (Ready K) K (Grd.Val K) (Reads K)) (Ver.Trace K) Ver.Hits} (hmo : ModesOnly sc)
    (hmap : ∀ m m', w.mapH none m m' = none) (wf : Ver.Spec.Body.WF (bodyOf T sc))
    (hdims : ∀ a m c h, c.1.length = d a ∧ c.2.length = d a → ∀ s ∈ w.bloat a m c h, s.box.1.length = d a ∧ s.box.2.length = d a)
    (hinit : ∀ a ∈ sc.agents, ∀ rs, Dict.get? sc.init a.1 = some rs → ∀ r ∈ rs, r.1.length = d a.1 ∧ r.2.length = d a.1)
    {n : Engine.Work (Ver.Body (Sense K) (Ready K) K (Grd.Val K) (Reads K)) (Ver.Trace K)} (hv : Visited w cfg (bodyOf T sc) n) {full : Ver.Trace K}
    (hc : Crossed w n full) : NodeRest (meaningOf T sc sig) w n full ∧ MapsFit T sc sig n.body full := by
  have hs : Proofs.Ver.Shaped (bodyOf T sc) d n := by
    refine Proofs.Ver.shaped_of_visited wf hdims ?_ hv
    intro a ha
    obtain ⟨a', ha', rfl⟩ := List.mem_map.1 ha
    exact hinit a' ha'
  refine ⟨Proofs.Ver.nodeRest_of_crossed ⟨by rw [hs.agents]; exact wf.names, by rw [hs.agents]; exact wf.logics⟩ ?_ hmap hc,
    Proofs.Asm.mapsFit_free T sc sig _ _ hmo.noMap⟩
  intro a dl hctl
  obtain ⟨c, h1, h2, rfl⟩ := (Proofs.Asm.controlled_iff hs.agents).1 hctl
  refine ⟨hmo.disc a c h1 h2, hmo.track a c h1 h2, fun p hp => ?_⟩
  obtain ⟨r, hr, rfl⟩ := List.mem_map.1 hp
  exact hmo.rules a c h1 h2 r hr

/-- **C55** for controllers that switch modes and change nothing else, in part: as `C55_formulas_partial`. Of the nodes of the tree it is required
that a tube that has begun to meet a guard goes on meeting it until a tube is contained in a guard, that guards that are met at the same step lead to
different modes, and that a tube is contained in a guard only after all executions have entered the node.

Missing: what is required of the nodes (`C55_gap_violated`); modes that are tracks of a map; `init_seg_length` must be 1; states
are considered at the steps only. -/
theorem C55_modes_partial (T : Tools K Seg) (sc : Scenario K) (sig : String → Sig)
    (bloat : String → List (Grd.Val K) → Rect.Box K → ℚ → Ver.Tube K) (mapH : Option (Grd.Val K) → List (Grd.Val K) → List (Grd.Val K) → Option (Grd.Val K))
    (round10 : ℚ → ℚ) (sh : K → Rst.Text) (rd : Rst.Text → Option K) (flow : String → List (Grd.Val K) → (Nat → List K) → Prop) (dt : ℚ) (N : Nat)
    (d : String → Nat) (cfg : Engine.Cfg (Ver.Body (Sense K) (Ready K) K (Grd.Val K) (Reads K)) (Ver.Trace K) Ver.Hits)
    (t : RTree (Label (Ver.Body (Sense K) (Ready K) K (Grd.Val K) (Reads K)) (Ver.Trace K) Ver.Hits))
    (hsc : GoodScenario sc sig) (hmo : ModesOnly sc) (hmap : ∀ m m', mapH none m m' = none) (hshape : Shapes sc sig d)
    (hcor : Correct (ground T sc) T.solver) (hcomp : Complete T.solver)
    (wf : Ver.Spec.Body.WF (bodyOf T sc)) (hdim : ∀ a ∈ sc.agents, ∀ rs, Dict.get? sc.init a.1 = some rs → ∀ r ∈ rs, r.1.length = d a.1 ∧ r.2.length = d a.1)
    (hdims : ∀ a m c h, c.1.length = d a ∧ c.2.length = d a → ∀ s ∈ bloat a m c h, s.box.1.length = d a ∧ s.box.2.length = d a)
    (hsound : SoundTubes (worldOf sc bloat 1 mapH round10 sh rd) flow dt N d) (hdt : 0 < dt)
    (hround : ∀ k : Nat, round10 ((k : ℚ) * dt) = (k : ℚ) * dt ∧ cfg.round10 ((k : ℚ) * dt) = (k : ℚ) * dt ∧ cfg.roundN ((k : ℚ) * dt) = (k : ℚ) * dt)
    (hkind : cfg.kind = .ver) (hcfg : cfg.step = Ver.verStep (worldOf sc bloat 1 mapH round10 sh rd)) (hhor : cfg.horizon = (N : ℚ) * dt)
    (hret : Returned cfg (bodyOf T sc) [] t) (hsafe : ∀ u k, RTree.Below t u k → u.label.hits = .ok none)
    (hok : ∀ n full, Visited (worldOf sc bloat 1 mapH round10 sh rd) cfg (bodyOf T sc) n →
      Ver.fillTubes (worldOf sc bloat 1 mapH round10 sh rd) n.body n.start (cfg.round10 (cfg.horizon - n.start)) n.trace = .ok full →
      Crossed (worldOf sc bloat 1 mapH round10 sh rd) n full)
    (ex : List (Phase K (Grd.Val K) × Nat)) (hex : Execution (meaningOf T sc sig) (worldOf sc bloat 1 mapH round10 sh rd) (bodyOf T sc) flow ex)
    (hstart : ∀ x, ex.head? = some x → Starts (bodyOf T sc) flow x.1) (hheight : ∀ mh, cfg.maxHeight = some mh → ex.length < mh)
    (hlast : (ex.dropLast.map Prod.snd).sum < N) :
    ∃ us, PathIn t us ∧ Tracks (sc.agents.map Prod.fst) dt N 0 ex us :=
  C55_formulas_partial T sc sig bloat mapH round10 sh rd flow dt N d cfg t hsc hshape hcor hcomp wf hdim hdims hsound hdt hround hkind hcfg hhor hret hsafe
    (fun n full hv hf => Modes.rest (d := d) hmo hmap wf hdims hdim hv (hok n full hv hf)) ex hex hstart hheight hlast

/-- **C80** for controllers that switch modes and change nothing else, in part: when `verify` reports no failed assert, then in every execution, at
every step before the horizon, every assert of every controller is true whose precondition is true.

Missing: as in `C55_modes_partial`; preconditions of asserts are about modes (`C28_precondition_violated`). -/
theorem C80_modes_partial (T : Tools K Seg) (sc : Scenario K) (sig : String → Sig)
    (bloat : String → List (Grd.Val K) → Rect.Box K → ℚ → Ver.Tube K) (mapH : Option (Grd.Val K) → List (Grd.Val K) → List (Grd.Val K) → Option (Grd.Val K))
    (round10 : ℚ → ℚ) (sh : K → Rst.Text) (rd : Rst.Text → Option K) (flow : String → List (Grd.Val K) → (Nat → List K) → Prop) (dt : ℚ) (N : Nat)
    (d : String → Nat) (cfg : Engine.Cfg (Ver.Body (Sense K) (Ready K) K (Grd.Val K) (Reads K)) (Ver.Trace K) Ver.Hits)
    (t : RTree (Label (Ver.Body (Sense K) (Ready K) K (Grd.Val K) (Reads K)) (Ver.Trace K) Ver.Hits))
    (hsc : GoodScenario sc sig) (hmo : ModesOnly sc) (hmap : ∀ m m', mapH none m m' = none) (hshape : Shapes sc sig d)
    (hcor : Correct (ground T sc) T.solver) (hcomp : Complete T.solver)
    (wf : Ver.Spec.Body.WF (bodyOf T sc)) (hdim : ∀ a ∈ sc.agents, ∀ rs, Dict.get? sc.init a.1 = some rs → ∀ r ∈ rs, r.1.length = d a.1 ∧ r.2.length = d a.1)
    (hdims : ∀ a m c h, c.1.length = d a ∧ c.2.length = d a → ∀ s ∈ bloat a m c h, s.box.1.length = d a ∧ s.box.2.length = d a)
    (hsound : SoundTubes (worldOf sc bloat 1 mapH round10 sh rd) flow dt N d) (hdt : 0 < dt)
    (hround : ∀ k : Nat, round10 ((k : ℚ) * dt) = (k : ℚ) * dt ∧ cfg.round10 ((k : ℚ) * dt) = (k : ℚ) * dt ∧ cfg.roundN ((k : ℚ) * dt) = (k : ℚ) * dt)
    (hkind : cfg.kind = .ver) (hcfg : cfg.step = Ver.verStep (worldOf sc bloat 1 mapH round10 sh rd)) (hhor : cfg.horizon = (N : ℚ) * dt)
    (hret : Returned cfg (bodyOf T sc) [] t) (hsafe : ∀ u k, RTree.Below t u k → u.label.hits = .ok none)
    (hok : ∀ n full, Visited (worldOf sc bloat 1 mapH round10 sh rd) cfg (bodyOf T sc) n →
      Ver.fillTubes (worldOf sc bloat 1 mapH round10 sh rd) n.body n.start (cfg.round10 (cfg.horizon - n.start)) n.trace = .ok full →
      Crossed (worldOf sc bloat 1 mapH round10 sh rd) n full)
    (ex : List (Phase K (Grd.Val K) × Nat)) (hex : Execution (meaningOf T sc sig) (worldOf sc bloat 1 mapH round10 sh rd) (bodyOf T sc) flow ex)
    (hstart : ∀ x, ex.head? = some x → Starts (bodyOf T sc) flow x.1) (hheight : ∀ mh, cfg.maxHeight = some mh → ex.length < mh) :
    ∀ k s, Occurs (bodyOf T sc) ex k s → k < N → Fine T sc sig s :=
  C80_formulas_partial T sc sig bloat mapH round10 sh rd flow dt N d cfg t hsc hshape hcor hcomp wf hdim hdims hsound hdt hround hkind hcfg hhor hret hsafe
    (fun n full hv hf => Modes.rest (d := d) hmo hmap wf hdims hdim hv (hok n full hv hf)) ex hex hstart hheight

end

end Verif.Props
