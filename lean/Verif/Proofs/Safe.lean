import Verif.Proofs.Execution2
import Verif.Spec.Safe

/-! The tree visits every phase of an execution, and checks all its states. -/

set_option autoImplicit false
set_option linter.unusedSectionVars false

namespace Verif.Proofs.Ver

open Verif.Ver Verif.Ver.Spec Verif.Rect.Spec Verif.Rst.Spec Verif.Props Verif.Spec

variable {S G K V D : Type} [Field K] [LinearOrder K] [DecidableEq V]
variable {M : Meaning S G K V D} {w : World S K V} {b : Body S G K V D} {flow : String → List V → (Nat → List K) → Prop} {dt : ℚ} {N : Nat}
  {d : String → Nat}

/-- If the node is safe, an assert whose precondition is certainly true is satisfied at every step that the search reaches. -/
theorem scan_safe {n : Engine.Work (Body S G K V D) (Trace K)} {remain : ℚ} {full : Trace K} (wf : Body.WF n.body)
    (hfill : fillTubes w n.body n.start remain n.trace = .ok full)
    {res : Engine.Result (Body S G K V D) (Trace K) (Option (Dict String (List String)))} (hrun : verifyOne w n remain = .ok res) (hsafe : res.hits = none)
    (hM : ∀ i a dl x sd, Controlled n.body a dl → x ∈ dl.asserts → Boxes n.body full i sd →
          x.cond (w.sense a sd) = .ok (true, true) → ∀ s, Within s sd → M.cond x a s)
    {i : Nat} {snap : Snap K V} {a : String} {dl : Logic S G K V D} {x : Assertion S} {sd : StateDict K V} (hstep : HasStep full i)
    (hreach : Reached w n.body full i) (hctl : Controlled n.body a dl) (hx : x ∈ dl.asserts) (hsd : Boxes n.body full i sd)
    (hpre : ∀ r, x.pre (w.sense a sd) = .ok r → r = (true, true)) (hin : Within snap sd) : M.cond x a snap := by
  obtain ⟨full', hfill', h⟩ := (bind_ok_iff _ _ _).1 hrun
  rw [hfill] at hfill'
  injection hfill' with hfill'
  subst hfill'
  obtain ⟨found, hfound, h⟩ := (bind_ok_iff _ _ _).1 h
  unfold getTransitions at hfound
  obtain ⟨prep, hprep, hfound⟩ := (bind_ok_iff _ _ _).1 hfound
  obtain ⟨N, hN, hfound⟩ := (bind_ok_iff _ _ _).1 hfound
  obtain ⟨sc, hsc, hfound⟩ := (bind_ok_iff _ _ _).1 hfound
  rcases scan_reaches wf.names hprep _ _ _ _ hsc i (Nat.zero_le _) (by rw [Nat.zero_add]; exact (traceLength_spec _ _ hN i).2 hstep)
      (fun j a p _ hj => hreach.1 j a p hj)
      (fun k _ hk hh => by
        rcases hh with hh | ⟨j, a, p, _, hj, hh⟩
        · exact absurd rfl hh
        · exact hreach.2 j k a p hj hk hh) with ⟨j, s, _, hj, hs, has, rfl⟩ | ⟨s, hs, has, -⟩
  · cases hfound
    dsimp only at h
    split at h
    · cases h
    · obtain ⟨cut, hcut, rfl⟩ := (map_ok_iff _ _ _).1 h
      cases hsafe
  · have hsp := checkSample_spec wf.names hprep hs
    obtain ⟨⟨r, hr⟩, hcond⟩ := hsp.evaluated a dl x sd (mem_controlled.2 hctl) hx hsd
    have hpre := hpre r hr ▸ hr
    obtain ⟨q, hq⟩ := hcond hpre
    by_cases hne : q = (true, true)
    · subst hne
      exact hM i a dl x sd hctl hx hsd hq snap hin
    · obtain ⟨ls, hls, _⟩ := (hsp.fails a x.label).2 ⟨dl, x, mem_controlled.2 hctl, rfl, hx, dl, sd, hctl, hx, hsd, hpre, q, hq, hne⟩
      rw [has] at hls
      cases hls

/-- The states of a phase that has entered a node are safe. -/
theorem phase_safe {n : Engine.Work (Body S G K V D) (Trace K)} {φ : Phase K V} {g off : Nat} {full : Trace K}
    (wf : Body.WF b) (hsound : SoundTubes w flow dt N d) (hseg : w.segLen = 1) (he : Entered b flow dt N d n φ g off)
    (hfill : fillTubes w n.body n.start (((N - g : Nat) : ℚ) * dt) n.trace = .ok full) (hok : NodeOK M w n full) (has : AssertsFaithful M w n.body full)
    {res : Engine.Result (Body S G K V D) (Trace K) (Option (Dict String (List String)))}
    (hrun : verifyOne w n (((N - g : Nat) : ℚ) * dt) = .ok res) (hsafe : res.hits = none) {steps : Nat} (hq : Quiet M b φ steps) :
    ∀ k, k ≤ steps → g + off + k < N → SafeState M b (φ.snap b k) := by
  have hwf' : Body.WF n.body := ⟨by rw [he.agents]; exact wf.names, by rw [he.agents]; exact wf.logics⟩
  have hg := full_good hsound hseg wf.names he hfill
  have hkeys := fillTubes_keys hfill he.nodup (by rw [he.agents]; exact he.keys)
  intro k hk hN a dl x hctl hx hpre
  have hreach := phase_reached he hg hkeys hok hq (i := off + k) (by omega) (by omega)
  have hstep := hasStep_iff he hg hkeys (i := off + k) (by omega)
  obtain ⟨sd, hsd, hin⟩ := phase_inTube he hg hN
  have hctl' : Controlled n.body a dl := ⟨by rw [he.agents]; exact hctl.1, hctl.2⟩
  exact scan_safe hwf' hfill hrun hsafe has.cond hstep hreach hctl' hx hsd (fun r hr => has.pre _ _ _ _ _ r hctl' hx hsd hr ⟨_, hin, hpre⟩) hin

/-- All states of the execution are safe. -/
theorem tree_safe {cfg : Engine.Cfg (Body S G K V D) (Trace K) Hits} (wf : Body.WF b) (hsound : SoundTubes w flow dt N d) (hseg : w.segLen = 1)
    (hdt : 0 < dt) (hround : ∀ k : Nat, w.round10 ((k : ℚ) * dt) = (k : ℚ) * dt)
    (hround' : ∀ k : Nat, cfg.round10 ((k : ℚ) * dt) = (k : ℚ) * dt ∧ cfg.roundN ((k : ℚ) * dt) = (k : ℚ) * dt)
    (hcfg : cfg.step = verStep w) (hhor : cfg.horizon = (N : ℚ) * dt)
    (hok : ∀ n full, Visited w cfg b n → fillTubes w n.body n.start (cfg.round10 (cfg.horizon - n.start)) n.trace = .ok full →
      NodeOK M w n full ∧ AssertsFaithful M w n.body full)
    (ex : List (Phase K V × Nat)) (hex : Execution M w b flow ex) :
    ∀ (φ : Phase K V) (m : Nat) (rest : List (Phase K V × Nat)), ex = (φ, m) :: rest →
    ∀ (n : Engine.Work (Body S G K V D) (Trace K)) (g off : Nat) (t : RTree (Label (Body S G K V D) (Trace K) Hits)), Visited w cfg b n →
      Entered b flow dt N d n φ g off → Explores (problem cfg false) n.height n.start n.body n.trace t →
      (∀ mh, cfg.maxHeight = some mh → n.height + ex.length < mh) →
      (∀ u k, RTree.Below t u k → u.label.hits = .ok none) →
      ∀ k s, Occurs b ex k s → g + off + k < N → SafeState M b s := by
  have node : ∀ (φ : Phase K V) (m : Nat) (n : Engine.Work (Body S G K V D) (Trace K)) (g off : Nat)
      (t : RTree (Label (Body S G K V D) (Trace K) Hits)), Visited w cfg b n →
      Entered b flow dt N d n φ g off → Explores (problem cfg false) n.height n.start n.body n.trace t →
      (∀ mh, cfg.maxHeight = some mh → n.height + 1 < mh) → g + off < N → t.label.hits = .ok none → Quiet M b φ m →
      (∀ k, k ≤ m → g + off + k < N → SafeState M b (φ.snap b k)) ∧
      ∀ φ', Switches M w b flow φ m φ' → g + off + m < N → ∃ n' g' off', ∃ t' ∈ t.kids, g' + off' = g + off + m ∧ Visited w cfg b n' ∧
        Entered b flow dt N d n' φ' g' off' ∧ n'.height = n.height + 1 ∧ Explores (problem cfg false) n'.height n'.start n'.body n'.trace t' := by
    intro φ m n g off t hvis hent hexp hh hN hhits hq
    have hsub : cfg.horizon - n.start = ((N - g : Nat) : ℚ) * dt := by
      rw [hhor, hent.start, Nat.cast_sub (by omega)]; ring
    have hremain : cfg.round10 (cfg.horizon - n.start) = ((N - g : Nat) : ℚ) * dt := by rw [hsub, (hround' _).1]
    have hexplored : (problem cfg false).explored n.height n.start := by
      refine ⟨hh, ?_⟩
      rw [hremain]
      have : (0 : ℚ) < ((N - g : Nat) : ℚ) := by
        rw [Nat.cast_pos]; omega
      positivity
    obtain ⟨_, _, e3, e4 | ⟨_, e5, e6, e7⟩⟩ := Engine.explores_node hexp
    · exact absurd hexplored e4.1
    have hwork : (⟨n.height, n.start, n.body, n.trace⟩ : Engine.Work (Body S G K V D) (Trace K)) = n := rfl
    have hexpand : (problem cfg false).expand n = { verStep w n (((N - g : Nat) : ℚ) * dt) with hits := (verStep w n (((N - g : Nat) : ℚ) * dt)).hits } := by
      simp only [problem, hcfg, hremain]
      rfl
    rw [hwork, hexpand] at e5 e6 e7
    dsimp only at e5 e6 e7
    rw [hhits] at e6
    obtain ⟨res, r1, r2, r3, r4⟩ := verStep_safe e6.symm
    obtain ⟨full, hfill, _⟩ := (bind_ok_iff _ _ _).1 r1
    have hnok := hok n full hvis (by rw [hremain]; exact hfill)
    refine ⟨?_, ?_⟩
    · exact phase_safe wf hsound hseg hent hfill hnok.1 hnok.2 r1 r2 hq
    · intro φ' hsw hmN
      obtain ⟨c, hc, g', off', hsum, hent'⟩ := phase_switch wf hsound hseg hround hent hfill hnok.1 r1 r2 hq hsw hmN
      have hst : cfg.roundN c.start = c.start := by
        have := (hent' 0 c.start rfl).start
        simp only at this
        rw [this, (hround' _).2]
      have hc' : c ∈ (verStep w n (((N - g : Nat) : ℚ) * dt)).next := by rw [r3]; exact hc
      obtain ⟨t', ht', hx'⟩ := forall₂_mem_left e7 hc'
      exact ⟨⟨n.height + 1, cfg.roundN c.start, c.body, c.trace⟩, g', off', t', ht', hsum, .child hvis (by rw [hremain]; exact hc'),
        hent' _ _ hst, rfl, hx'⟩
  induction hex with
  | @last φ0 m0 hq =>
    intro φ m rest heq n g off t hvis hent hexp hh hsafe k s hocc hk
    cases heq
    obtain ⟨h1, _⟩ := node φ0 m0 n g off t hvis hent hexp (fun mh hm => by simpa using hh mh hm) hent.before (hsafe t 0 (.refl t)) hq
    cases hocc with
    | here h => exact h1 k h hk
    | later h => cases h
  | @switch φ0 m0 φ1 m1 rest1 hq hsw _ ih =>
    intro φ m rest heq n g off t hvis hent hexp hh hsafe k s hocc hk
    cases heq
    obtain ⟨h1, h3⟩ := node φ0 m0 n g off t hvis hent hexp (fun mh hm => by
      have := hh mh hm
      simp only [List.length_cons] at this; omega) hent.before (hsafe t 0 (.refl t)) hq
    cases hocc with
    | here h => exact h1 k h hk
    | @later _ _ _ k' _ h =>
      obtain ⟨n', g', off', t', ht', hg', hvis', hent', hheight, hexp'⟩ := h3 φ1 hsw (by omega)
      refine ih φ1 m1 rest1 rfl n' g' off' t' hvis' hent' hexp' (fun mh hm => by
        have := hh mh hm
        simp only [List.length_cons] at this ⊢; omega) (fun u k hb => by
          cases t with
          | node dd kids => exact hsafe u (k + 1) (.step ht' hb)) k' s h (by omega)

end Verif.Proofs.Ver
