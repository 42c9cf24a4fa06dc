import Verif.Proofs.Assembled5
import Verif.Props.Safe

/-!
C55 and C80 for controllers that are given by formulas: the model of the analysis step with the models of guards and of the sensor in place.
-/

set_option autoImplicit false
set_option linter.unusedSectionVars false

namespace Verif.Props

open Verif.Spec Verif.Ver.Spec Verif.Asm Verif.Asm.Spec
open Verif.Grd.Spec (Correct Complete)

section
variable {K Seg : Type} [Field K] [LinearOrder K] [IsStrictOrderedRing K]

/-- **C55** for controllers that are given by formulas, in part: as `C55_covers_partial`, where rules apply when their guards are true, agents sense
what the other agents do, and guards are unrolled, evaluated and handed to the solver. That the answers about guards are right is not assumed here: it
follows from what is assumed of the solver.

Missing: as in `C55_covers_partial` (`NodeRest`); the enclosures of map queries (`MapsFit`, see C23). -/
theorem C55_formulas_partial (T : Tools K Seg) (sc : Scenario K) (sig : String → Sig)
    (bloat : String → List (Grd.Val K) → Rect.Box K → ℚ → Ver.Tube K) (mapH : Option (Grd.Val K) → List (Grd.Val K) → List (Grd.Val K) → Option (Grd.Val K))
    (round10 : ℚ → ℚ) (sh : K → Rst.Text) (rd : Rst.Text → Option K) (flow : String → List (Grd.Val K) → (Nat → List K) → Prop) (dt : ℚ) (N : Nat)
    (d : String → Nat) (cfg : Engine.Cfg (Ver.Body (Sense K) (Ready K) K (Grd.Val K) (Reads K)) (Ver.Trace K) Ver.Hits)
    (t : RTree (Label (Ver.Body (Sense K) (Ready K) K (Grd.Val K) (Reads K)) (Ver.Trace K) Ver.Hits))
    (hsc : GoodScenario sc sig) (hshape : Shapes sc sig d) (hcor : Correct (ground T sc) T.solver) (hcomp : Complete T.solver)
    (wf : Ver.Spec.Body.WF (bodyOf T sc)) (hdim : ∀ a ∈ sc.agents, ∀ rs, Dict.get? sc.init a.1 = some rs → ∀ r ∈ rs, r.1.length = d a.1 ∧ r.2.length = d a.1)
    (hdims : ∀ a m c h, c.1.length = d a ∧ c.2.length = d a → ∀ s ∈ bloat a m c h, s.box.1.length = d a ∧ s.box.2.length = d a)
    (hsound : SoundTubes (worldOf sc bloat 1 mapH round10 sh rd) flow dt N d) (hdt : 0 < dt)
    (hround : ∀ k : Nat, round10 ((k : ℚ) * dt) = (k : ℚ) * dt ∧ cfg.round10 ((k : ℚ) * dt) = (k : ℚ) * dt ∧ cfg.roundN ((k : ℚ) * dt) = (k : ℚ) * dt)
    (hkind : cfg.kind = .ver) (hcfg : cfg.step = Ver.verStep (worldOf sc bloat 1 mapH round10 sh rd)) (hhor : cfg.horizon = (N : ℚ) * dt)
    (hret : Returned cfg (bodyOf T sc) [] t) (hsafe : ∀ u k, RTree.Below t u k → u.label.hits = .ok none)
    (hok : ∀ n full, Visited (worldOf sc bloat 1 mapH round10 sh rd) cfg (bodyOf T sc) n →
      Ver.fillTubes (worldOf sc bloat 1 mapH round10 sh rd) n.body n.start (cfg.round10 (cfg.horizon - n.start)) n.trace = .ok full →
      NodeRest (meaningOf T sc sig) (worldOf sc bloat 1 mapH round10 sh rd) n full ∧ MapsFit T sc sig n.body full)
    (ex : List (Phase K (Grd.Val K) × Nat)) (hex : Execution (meaningOf T sc sig) (worldOf sc bloat 1 mapH round10 sh rd) (bodyOf T sc) flow ex)
    (hstart : ∀ x, ex.head? = some x → Starts (bodyOf T sc) flow x.1) (hheight : ∀ mh, cfg.maxHeight = some mh → ex.length < mh)
    (hlast : (ex.dropLast.map Prod.snd).sum < N) :
    ∃ us, PathIn t us ∧ Tracks (sc.agents.map Prod.fst) dt N 0 ex us := by
  have hn : (bodyOf T sc).agents.map Prod.fst = sc.agents.map Prod.fst := by simp [bodyOf]
  rw [← hn]
  refine C55_covers_partial (meaningOf T sc sig) (worldOf sc bloat 1 mapH round10 sh rd) (bodyOf T sc) flow dt N d cfg t wf ?_ hsound rfl hdt hround hkind hcfg
    hhor hret hsafe ?_ ex hex hstart hheight hlast
  · intro a ha
    obtain ⟨a', ha', rfl⟩ := List.mem_map.1 ha
    exact hdim a' ha'
  · intro n full hv hf
    obtain ⟨h1, h2⟩ := hok n full hv hf
    exact (Proofs.Asm.nodeOK_of hsc hshape rfl hcor hcomp wf hdims hdim hv hf h1 h2).1

/-- **C80** for controllers that are given by formulas, in part: when `verify` reports no failed assert, then in every execution, at every step before
the horizon, every assert of every controller is true whose precondition is true.

Missing: as in `C80_safe_partial` (`NodeRest`); preconditions of asserts are about modes (`C28_precondition_violated`); the enclosures of map queries
(`MapsFit`, see C23). -/
theorem C80_formulas_partial (T : Tools K Seg) (sc : Scenario K) (sig : String → Sig)
    (bloat : String → List (Grd.Val K) → Rect.Box K → ℚ → Ver.Tube K) (mapH : Option (Grd.Val K) → List (Grd.Val K) → List (Grd.Val K) → Option (Grd.Val K))
    (round10 : ℚ → ℚ) (sh : K → Rst.Text) (rd : Rst.Text → Option K) (flow : String → List (Grd.Val K) → (Nat → List K) → Prop) (dt : ℚ) (N : Nat)
    (d : String → Nat) (cfg : Engine.Cfg (Ver.Body (Sense K) (Ready K) K (Grd.Val K) (Reads K)) (Ver.Trace K) Ver.Hits)
    (t : RTree (Label (Ver.Body (Sense K) (Ready K) K (Grd.Val K) (Reads K)) (Ver.Trace K) Ver.Hits))
    (hsc : GoodScenario sc sig) (hshape : Shapes sc sig d) (hcor : Correct (ground T sc) T.solver) (hcomp : Complete T.solver)
    (wf : Ver.Spec.Body.WF (bodyOf T sc)) (hdim : ∀ a ∈ sc.agents, ∀ rs, Dict.get? sc.init a.1 = some rs → ∀ r ∈ rs, r.1.length = d a.1 ∧ r.2.length = d a.1)
    (hdims : ∀ a m c h, c.1.length = d a ∧ c.2.length = d a → ∀ s ∈ bloat a m c h, s.box.1.length = d a ∧ s.box.2.length = d a)
    (hsound : SoundTubes (worldOf sc bloat 1 mapH round10 sh rd) flow dt N d) (hdt : 0 < dt)
    (hround : ∀ k : Nat, round10 ((k : ℚ) * dt) = (k : ℚ) * dt ∧ cfg.round10 ((k : ℚ) * dt) = (k : ℚ) * dt ∧ cfg.roundN ((k : ℚ) * dt) = (k : ℚ) * dt)
    (hkind : cfg.kind = .ver) (hcfg : cfg.step = Ver.verStep (worldOf sc bloat 1 mapH round10 sh rd)) (hhor : cfg.horizon = (N : ℚ) * dt)
    (hret : Returned cfg (bodyOf T sc) [] t) (hsafe : ∀ u k, RTree.Below t u k → u.label.hits = .ok none)
    (hok : ∀ n full, Visited (worldOf sc bloat 1 mapH round10 sh rd) cfg (bodyOf T sc) n →
      Ver.fillTubes (worldOf sc bloat 1 mapH round10 sh rd) n.body n.start (cfg.round10 (cfg.horizon - n.start)) n.trace = .ok full →
      NodeRest (meaningOf T sc sig) (worldOf sc bloat 1 mapH round10 sh rd) n full ∧ MapsFit T sc sig n.body full)
    (ex : List (Phase K (Grd.Val K) × Nat)) (hex : Execution (meaningOf T sc sig) (worldOf sc bloat 1 mapH round10 sh rd) (bodyOf T sc) flow ex)
    (hstart : ∀ x, ex.head? = some x → Starts (bodyOf T sc) flow x.1) (hheight : ∀ mh, cfg.maxHeight = some mh → ex.length < mh) :
    ∀ k s, Occurs (bodyOf T sc) ex k s → k < N → Fine T sc sig s := by
  intro k s hk hN a c y hc harg hy hpre
  have hs := C80_safe_partial (meaningOf T sc sig) (worldOf sc bloat 1 mapH round10 sh rd) (bodyOf T sc) flow dt N d cfg t wf ?_ hsound rfl hdt hround hkind hcfg
    hhor hret hsafe ?_ ex hex hstart hheight k s hk hN
  · exact hs a (logicOf T c) (assertionOf T y) ((Proofs.Asm.controlled_iff rfl).2 ⟨c, hc, harg, rfl⟩) (List.mem_map.2 ⟨y, hy, rfl⟩)
      ⟨c, y, hc, hy, rfl, hpre⟩ c y hc hy rfl
  · intro a ha
    obtain ⟨a', ha', rfl⟩ := List.mem_map.1 ha
    exact hdim a' ha'
  · intro n full hv hf
    obtain ⟨h1, h2⟩ := hok n full hv hf
    exact Proofs.Asm.nodeOK_of hsc hshape rfl hcor hcomp wf hdims hdim hv hf h1 h2

end

end Verif.Props
