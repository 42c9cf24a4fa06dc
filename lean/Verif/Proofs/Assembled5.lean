import Verif.Proofs.Assembled4
import Verif.Proofs.Shapes

/-!
Rectangles and modes fit the definitions of the controllers at all nodes.
-/

set_option autoImplicit false
set_option linter.unusedSectionVars false

namespace Verif.Proofs.Asm

open Verif.Asm Verif.Asm.Spec Verif.Grd Verif.Ver.Spec Verif.Proofs.Ver

variable {K Seg : Type} [Field K] [LinearOrder K]

theorem boxes_mem {b : Ver.Body (Sense K) (Ready K) K (Grd.Val K) (Reads K)} {tr : Ver.Trace K} {i : Nat} {sd : Ver.StateDict K (Grd.Val K)} (h : Boxes b tr i sd)
    {o : String × Ver.Seg K × List (Grd.Val K) × List (Grd.Val K)} (ho : o ∈ sd) :
    ∃ a ∈ b.agents, o.1 = a.1 ∧ (∃ segs, Dict.get? tr a.1 = some segs ∧ o.2.1 ∈ segs) ∧ Dict.get? b.mode a.1 = some o.2.2.1 ∧
      Dict.get? b.static a.1 = some o.2.2.2 := by
  unfold Boxes at h
  obtain ⟨a, ha, h1, ⟨segs, h2, h3⟩, h4, h5⟩ := forall₂_mem_right h ho
  exact ⟨a, ha, h1, ⟨segs, h2, List.mem_of_getElem? h3⟩, h4, h5⟩

/-- Rectangles and modes of a node fit. -/
theorem fitting_of {T : Tools K Seg} {sc : Scenario K} {sig : String → Sig} {d : String → Nat} (hsh : Shapes sc sig d)
    {n : Engine.Work (Ver.Body (Sense K) (Ready K) K (Grd.Val K) (Reads K)) (Ver.Trace K)} (hs : Shaped (bodyOf T sc) d n) {full : Ver.Trace K}
    (hfd : ∀ a ∈ (bodyOf T sc).agents, ∀ segs, Dict.get? full a.1 = some segs → ∀ s ∈ segs, Dim (d a.1) s.box)
    {i : Nat} {sd : Ver.StateDict K (Grd.Val K)} (hb : Boxes n.body full i sd) : Fitting sc sig sd := by
  intro a c hc harg o ho
  obtain ⟨x, hx, h1, ⟨segs, h2, h3⟩, h4, h5⟩ := boxes_mem hb ho
  rw [hs.agents] at hx
  have hd := hfd x hx segs h2 _ h3
  obtain ⟨m0, hm0, hml⟩ := hs.mode x hx _ h4
  rw [hs.static] at h5
  rw [← h1] at hd hm0 h5
  obtain ⟨⟨o', c'⟩, hc', rfl⟩ := List.mem_map.1 hx
  dsimp only at h1
  have hz : (o.2.1.box.1.zip o.2.1.box.2).length = d o.1 := by rw [List.length_zip, hd.1, hd.2, min_self]
  constructor
  · intro e
    rw [e] at hz hm0 h5
    obtain ⟨q1, q2, q3⟩ := hsh.own a c m0 o.2.2.2 hc harg hm0 h5
    exact ⟨hz.trans q1, hml.trans q2, q3⟩
  · intro hne k df hdf
    obtain ⟨q1, q2, q3⟩ := hsh.others a c k df hc harg hdf o.1 c' m0 o.2.2.2 (h1 ▸ hc') hne hm0 h5
    exact ⟨hz.trans q1, hml.trans q2, q3⟩

variable [IsStrictOrderedRing K]

/-- What is required of a node, from what is required of the scenario. -/
theorem nodeOK_of {T : Tools K Seg} {sc : Scenario K} {sig : String → Sig} {d : String → Nat} {w : Ver.World (Sense K) K (Grd.Val K)}
    {cfg : Engine.Cfg (Ver.Body (Sense K) (Ready K) K (Grd.Val K) (Reads K)) (Ver.Trace K) Ver.Hits}
    (hsc : GoodScenario sc sig) (hsh : Shapes sc sig d) (hw : w.sense = senseIn sc) (hcor : Grd.Spec.Correct (ground T sc) T.solver)
    (hcomp : Grd.Spec.Complete T.solver) (wf : Ver.Spec.Body.WF (bodyOf T sc))
    (hdims : ∀ a m c h, c.1.length = d a ∧ c.2.length = d a → ∀ s ∈ w.bloat a m c h, s.box.1.length = d a ∧ s.box.2.length = d a)
    (hinit : ∀ a ∈ sc.agents, ∀ rs, Dict.get? sc.init a.1 = some rs → ∀ r ∈ rs, r.1.length = d a.1 ∧ r.2.length = d a.1)
    {n : Engine.Work (Ver.Body (Sense K) (Ready K) K (Grd.Val K) (Reads K)) (Ver.Trace K)} (hv : Visited w cfg (bodyOf T sc) n) {remain : ℚ} {full : Ver.Trace K}
    (hfill : Ver.fillTubes w n.body n.start remain n.trace = .ok full) (hr : NodeRest (meaningOf T sc sig) w n full) (hm : MapsFit T sc sig n.body full) :
    NodeOK (meaningOf T sc sig) w n full ∧ AssertsFaithful (meaningOf T sc sig) w n.body full := by
  have hs : Shaped (bodyOf T sc) d n := by
    refine shaped_of_visited wf hdims ?_ hv
    intro a ha
    obtain ⟨a', ha', rfl⟩ := List.mem_map.1 ha
    exact hinit a' ha'
  have hfd := full_dim wf.names hdims hs hfill
  have hfit : TubesFit T sc sig n.body full := ⟨fun i sd hb => fitting_of hsh hs hfd hb, hm⟩
  refine ⟨⟨hr, ?_, faithful_of hsc hs.agents hw hfit hcor hcomp, contained_of hsc hs.agents hw hfit hcor⟩, asserts_of hsc hs.agents hw hfit hcor hcomp⟩
  intro a dl src hctl hsrc
  obtain ⟨c, hc, harg, rfl⟩ := (controlled_iff hs.agents).1 hctl
  obtain ⟨m0, h1, h2⟩ := hs.mode (a, logicOf T c) (List.mem_map.2 ⟨(a, c), hc, rfl⟩) _ hsrc
  exact h2.trans (hsh.disc a c m0 hc harg h1)

end Verif.Proofs.Asm
