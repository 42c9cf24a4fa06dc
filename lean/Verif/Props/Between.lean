import Verif.Proofs.Between
import Verif.Props.Execution
import Verif.Props.Safe

/-!
C82 and C83: the tree of reachable sets covers executions in continuous time, also between the steps, and the asserts hold there.
-/

set_option autoImplicit false
set_option linter.unusedSectionVars false

namespace Verif.Props

open Verif.Ver Verif.Ver.Spec Verif.Proofs.Ver Verif.Rect.Spec Verif.Rst.Spec Verif.Spec Verif.Proofs.Between

section
variable {S G K V D R : Type} [Field K] [LinearOrder K] [DecidableEq V] [Field R] [LinearOrder R] [IsStrictOrderedRing R] [FloorRing R]

/-- The conditions of C82 and C83 on the scenario, the settings and the tree: `verify` has returned the tree `t` for the scenario `b`, with time step `dt` and
time horizon `N * dt`, and has found no failed assert. -/
structure Verified (M : Meaning S G K V D) (w : World S K V) (b : Body S G K V D) (flow : String → List V → (R → List K) → Prop) (dt : ℚ) (N : Nat)
    (d : String → Nat) (cfg : Engine.Cfg (Body S G K V D) (Trace K) Hits) (t : RTree (Label (Body S G K V D) (Trace K) Hits)) : Prop where
  wf : Body.WF b
  dim : ∀ a ∈ b.agents, ∀ rs, Dict.get? b.init a.1 = some rs → ∀ r ∈ rs, r.1.length = d a.1 ∧ r.2.length = d a.1
  sound : CSoundTubes w flow dt N d
  seg : w.segLen = 1
  pos : 0 < dt
  round : ∀ k : Nat, w.round10 ((k : ℚ) * dt) = (k : ℚ) * dt ∧ cfg.round10 ((k : ℚ) * dt) = (k : ℚ) * dt ∧ cfg.roundN ((k : ℚ) * dt) = (k : ℚ) * dt
  kind : cfg.kind = .ver
  step : cfg.step = verStep w
  hor : cfg.horizon = (N : ℚ) * dt
  ret : Returned cfg b [] t
  safe : ∀ u k, RTree.Below t u k → u.label.hits = .ok none
  ok : ∀ n full, Visited w cfg b n → fillTubes w n.body n.start (cfg.round10 (cfg.horizon - n.start)) n.trace = .ok full → NodeOK M w n full

variable {M : Meaning S G K V D} {w : World S K V} {b : Body S G K V D} {flow : String → List V → (R → List K) → Prop} {dt : ℚ} {N : Nat}
  {d : String → Nat} {cfg : Engine.Cfg (Body S G K V D) (Trace K) Hits} {t : RTree (Label (Body S G K V D) (Trace K) Hits)}

/-- The first phase enters the root. -/
theorem Verified.entered (h : Verified M w b flow dt N d cfg t) {φ : CPhase R K V} (hs : CStarts b flow φ) (hN : 0 < N) :
    Verif.Proofs.Steps.Entered b (sflow dt flow) dt N d ⟨0, cfg.roundN 0, b, []⟩ (toS dt φ) 0 0 := by
  have h0 : cfg.roundN 0 = 0 := by
    have := (h.round 0).2.2
    simpa using this
  refine ⟨rfl, rfl, fun a ha => (hs a ha).2.1, ?_, by omega, by simp, by simp, fun a ha => (hs a ha).1, ?_, .inl rfl⟩
  · simp only; rw [h0]; simp
  · intro a ha
    obtain ⟨_, _, h3, r, h4, h5⟩ := hs a ha
    exact .inr ⟨rfl, [r], h4, fun r' hr' => h.dim a ha _ h4 r' hr', _, ⟨φ.path a.1, h3, rfl, fun k y hy => hy⟩, r, rfl, h5⟩

theorem Verified.explores (h : Verified M w b flow dt N d cfg t) : Explores (problem cfg false) 0 (cfg.roundN 0) b [] t := by
  have hexp := Engine.returned_explores h.ret
  have hd : (cfg.parallel && decide (cfg.kind = .sim)) = false := by rw [h.kind]; simp
  rwa [hd] at hexp

theorem Verified.covers (h : Verified M w b flow dt N d cfg t) {look : R → Prop} {late : R} (hf : Fits b dt look late 0)
    {ex : List (CPhase R K V × R)} (hex : CExecution M w b flow look 0 ex) (hstart : ∀ x, ex.head? = some x → CStarts b flow x.1)
    (hheight : ∀ mh, cfg.maxHeight = some mh → ex.length < mh) (hlast : (ex.dropLast.map Prod.snd).sum < (N : R) * (dt : R)) :
    ∃ us, PathIn t us ∧ CTracks (b.agents.map Prod.fst) dt N late 0 0 ex us := by
  obtain ⟨e1, e2, e3⟩ := exec_steps h.pos hex hf
  have hsum := lt_of_le_of_lt (sum_steps h.pos ex e3) hlast
  have hsum' : ((toEx dt ex).dropLast.map Prod.snd).sum < N := by
    exact_mod_cast lt_of_mul_lt_mul_right hsum (pos_cast (R := R) h.pos).le
  obtain ⟨φ, m, rest, rfl⟩ : ∃ φ m rest, ex = (φ, m) :: rest := by
    cases hex
    · exact ⟨_, _, _, rfl⟩
    · exact ⟨_, _, _, rfl⟩
  obtain ⟨us, u1, u2⟩ := Verif.Proofs.Steps.tree_tracks (cfg := cfg) h.wf (Verif.Proofs.Between.sound h.sound) h.seg h.pos (fun k => (h.round k).1) (fun k => (h.round k).2) h.step h.hor
    h.ok _ e1 (toS dt φ) (whole dt m) (toEx dt rest) rfl ⟨0, cfg.roundN 0, b, []⟩ 0 0 t .root (h.entered (hstart (φ, m) rfl) (by omega)) h.explores
    (fun mh hm => by have := hheight mh hm; simpa [toEx] using this) (by omega) h.safe
  exact ⟨us, u1, tracks_times h.pos _ _ _ _ _ u2 e2 e3 (by simp) (by simp)⟩

theorem Verified.allSafe (h : Verified M w b flow dt N d cfg t) {look : R → Prop} {late : R} (hf : Fits b dt look late 0)
    (has : ∀ n full, Visited w cfg b n → fillTubes w n.body n.start (cfg.round10 (cfg.horizon - n.start)) n.trace = .ok full → AssertsFaithful M w n.body full)
    {ex : List (CPhase R K V × R)} (hex : CExecution M w b flow look 0 ex) (hstart : ∀ x, ex.head? = some x → CStarts b flow x.1)
    (hheight : ∀ mh, cfg.maxHeight = some mh → ex.length < mh) :
    ∀ τ s, COccurs b ex τ s → τ < (N : R) * (dt : R) → SafeState M b s := by
  obtain ⟨e1, e2, e3⟩ := exec_steps h.pos hex hf
  intro τ s hocc hτ
  obtain ⟨k, k1, k2⟩ := occurs_step h.pos hocc e3
  have hk : k < N := by
    exact_mod_cast lt_of_mul_lt_mul_right (lt_of_le_of_lt k2 hτ) (pos_cast (R := R) h.pos).le
  obtain ⟨φ, m, rest, rfl⟩ : ∃ φ m rest, ex = (φ, m) :: rest := by
    cases hex
    · exact ⟨_, _, _, rfl⟩
    · exact ⟨_, _, _, rfl⟩
  exact Verif.Proofs.Steps.tree_safe (cfg := cfg) h.wf (Verif.Proofs.Between.sound h.sound) h.seg h.pos (fun k => (h.round k).1) (fun k => (h.round k).2) h.step h.hor
    (fun n full h1 h2 => ⟨h.ok n full h1 h2, has n full h1 h2⟩) _ e1 (toS dt φ) (whole dt m) (toEx dt rest) rfl ⟨0, cfg.roundN 0, b, []⟩ 0 0 t .root
    (h.entered (hstart (φ, m) rfl) (by omega)) h.explores (fun mh hm => by have := hheight mh hm; simpa [toEx] using this) h.safe k s k1 (by omega)

/-- **C82**, in part: controllers that look at the state at the multiples of the time step only. Every execution from the initial set, with urgent transitions, the
last one before the horizon, and fewer phases than the maximal height, has a path in the tree: its nodes have the modes of the phases, and at every time, also
between the steps, their tubes have a rectangle for that time that contains the state.

Missing: `NodeOK` must hold for all nodes and `init_seg_length` must be 1, as in `C55_covers_partial`. -/
theorem C82_sampled_partial (h : Verified M w b flow dt N d cfg t) (ex : List (CPhase R K V × R)) (hex : CExecution M w b flow (AtSteps dt) 0 ex)
    (hstart : ∀ x, ex.head? = some x → CStarts b flow x.1)
    (hheight : ∀ mh, cfg.maxHeight = some mh → ex.length < mh) (hlast : (ex.dropLast.map Prod.snd).sum < (N : R) * (dt : R)) :
    ∃ us, PathIn t us ∧ CTracks (b.agents.map Prod.fst) dt N 0 0 0 ex us :=
  h.covers (.inr ⟨rfl, rfl, 0, by simp⟩) hex hstart hheight hlast

/-- **C82**, in part: a scenario with one agent, whose controller looks at the state all the time. The execution has a path in the tree, and at every time the tubes
have a rectangle that contains the state. The rectangle can be one for an earlier time: after `k` switches, for a time up to `k` time steps earlier.

Missing: that the rectangle is one for the right time is false (`C82_late_violated`); for several agents, see `C83_together_violated`. Otherwise as
`C82_sampled_partial`. -/
theorem C82_urgent_partial (h : Verified M w b flow dt N d cfg t) (hone : ∃ x, b.agents = [x]) (ex : List (CPhase R K V × R))
    (hex : CExecution M w b flow Always 0 ex) (hstart : ∀ x, ex.head? = some x → CStarts b flow x.1)
    (hheight : ∀ mh, cfg.maxHeight = some mh → ex.length < mh) (hlast : (ex.dropLast.map Prod.snd).sum < (N : R) * (dt : R)) :
    ∃ us, PathIn t us ∧ CTracks (b.agents.map Prod.fst) dt N (dt : R) 0 0 ex us :=
  h.covers (.inl ⟨rfl, hone, rfl⟩) hex hstart hheight hlast

/-- **C83**, in part: controllers that look at the state at the multiples of the time step only. At every time before the horizon, also between the steps, the state
satisfies the asserts of all controllers.

Missing: as in `C80_safe_partial`, except for the states between the steps. -/
theorem C83_sampled_partial (h : Verified M w b flow dt N d cfg t)
    (has : ∀ n full, Visited w cfg b n → fillTubes w n.body n.start (cfg.round10 (cfg.horizon - n.start)) n.trace = .ok full → AssertsFaithful M w n.body full)
    (ex : List (CPhase R K V × R)) (hex : CExecution M w b flow (AtSteps dt) 0 ex) (hstart : ∀ x, ex.head? = some x → CStarts b flow x.1)
    (hheight : ∀ mh, cfg.maxHeight = some mh → ex.length < mh) :
    ∀ τ s, COccurs b ex τ s → τ < (N : R) * (dt : R) → SafeState M b s :=
  h.allSafe (.inr ⟨rfl, rfl, 0, by simp⟩) has hex hstart hheight

/-- **C83**, in part: one agent, whose controller looks at the state all the time. -/
theorem C83_urgent_partial (h : Verified M w b flow dt N d cfg t) (hone : ∃ x, b.agents = [x])
    (has : ∀ n full, Visited w cfg b n → fillTubes w n.body n.start (cfg.round10 (cfg.horizon - n.start)) n.trace = .ok full → AssertsFaithful M w n.body full)
    (ex : List (CPhase R K V × R)) (hex : CExecution M w b flow Always 0 ex) (hstart : ∀ x, ex.head? = some x → CStarts b flow x.1)
    (hheight : ∀ mh, cfg.maxHeight = some mh → ex.length < mh) :
    ∀ τ s, COccurs b ex τ s → τ < (N : R) * (dt : R) → SafeState M b s :=
  h.allSafe (.inl ⟨rfl, hone, rfl⟩) has hex hstart hheight

end

end Verif.Props
