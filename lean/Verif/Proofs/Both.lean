import Verif.Spec.Both
import Verif.Proofs.Sim3
import Verif.Props.Sim

/-! Paths of the simulator's tree are executions. -/

set_option autoImplicit false
set_option linter.unusedSectionVars false

namespace Verif.Proofs.Both

open Verif.Both Verif.Rst.Spec Verif.Rect.Spec Verif.Engine
open Verif.Ver.Spec (Phase PathIn Execution Quiet Switches)

variable {Env U S G K V D : Type} [Field K] [LinearOrder K] [DecidableEq U]

theorem forall₂_trans {A B C : Type} {R : A → B → Prop} {Q : B → C → Prop} : ∀ {l1 : List A} {l2 : List B} {l3 : List C},
    List.Forall₂ R l1 l2 → List.Forall₂ Q l2 l3 → ∀ (P : A → Prop), (∀ x ∈ l1, P x) →
    List.Forall₂ (fun x z => P x ∧ ∃ y, R x y ∧ Q y z) l1 l3
  | [], [], [], .nil, .nil, _, _ => .nil
  | x :: l1, y :: l2, z :: l3, .cons h1 h2, .cons g1 g2, P, hP =>
    .cons ⟨hP x (by simp), y, h1, g1⟩ (forall₂_trans h2 g2 P (fun x hx => hP x (by simp [hx])))

theorem lift_list {A B : Type} (f : A → B) : ∀ l : List B, (∀ y ∈ l, ∃ x, y = f x) → ∃ l' : List A, l = l'.map f
  | [], _ => ⟨[], rfl⟩
  | y :: l, h => by
    obtain ⟨x, hx⟩ := h y (by simp)
    obtain ⟨l', hl⟩ := lift_list f l (fun y hy => h y (by simp [hy]))
    exact ⟨x :: l', by rw [hx, hl]; rfl⟩

section
variable {num : K → U} {sym : V → U} {M : Ver.Spec.Meaning S G K V D} {vw : Ver.World S K V} {vb : Ver.Body S G K V D}
  {sw : Sim.World Env U} {sb : Sim.Body Env U}

/-- All rows of the traces are the states of the phase, which begins after `g` steps. -/
def RowsAre (num : K → U) (vb : Ver.Body S G K V D) (dt : ℚ) (φ : Phase K V) (g : Nat) (tr : Sim.Trace U) : Prop :=
  ∀ a ∈ vb.agents, ∀ rows, Dict.get? tr a.1 = some rows → ∀ (j : Nat) (row : Sim.Row U), rows[j]? = some row →
    row = ⟨((g + j : Nat) : ℚ) * dt, (φ.path a.1 j).map num⟩

/-- Modes and static values of the node. -/
structure Base (sym : V → U) (vb : Ver.Body S G K V D) (sb : Sim.Body Env U) (φ : Phase K V) (b : Sim.Body Env U) : Prop where
  agents : b.agents = sb.agents
  static : b.static = sb.static
  mode : ∀ a ∈ vb.agents, Dict.get? b.mode a.1 = some ((φ.mode a.1).map sym)
  modeLen : ∀ a ∈ vb.agents, (φ.mode a.1).length = a.2.disc.length
  len : ∀ a ∈ vb.agents, ∀ k, (φ.path a.1 k).length = a.2.cont.length

theorem snapshot_same (same : SameScenario num sym M vw vb sw sb) {φ : Phase K V} {b : Sim.Body Env U} (hb : Base sym vb sb φ b) {dt : ℚ} {g : Nat}
    {tr : Sim.Trace U} (hr : RowsAre num vb dt φ g tr) {k : Nat} {sd : Sim.StateDict U} (hs : Spec.Snapshot b tr k sd) :
    Same num sym (φ.snap vb k) sd ∧ ∀ x ∈ sd, x.2.1.time = ((g + k : Nat) : ℚ) * dt ∧ ∃ a ∈ vb.agents, x.1 = a.1 ∧
      x.2.1.state = (φ.path a.1 k).map num := by
  unfold Spec.Snapshot at hs
  rw [hb.agents] at hs
  have h := forall₂_trans same.agents hs (fun x => x ∈ vb.agents) (fun x hx => hx)
  constructor
  · unfold Same Phase.snap
    rw [List.forall₂_map_left_iff]
    refine h.imp ?_
    rintro x z ⟨hx, y, ⟨e1, _⟩, e2, ⟨rows, r1, r2⟩, m1, s1⟩
    rw [e1] at e2 r1 m1 s1
    rw [hb.mode x hx] at m1
    obtain ⟨s, s2, s3⟩ := same.static x hx
    rw [hb.static, s3] at s1
    refine ⟨e2, ?_, ?_, ?_⟩
    · rw [hr x hx rows r1 k _ r2]
    · injection m1 with m1; exact m1.symm
    · injection s1 with s1; rw [← s1, s2]; rfl
  · intro z hz
    obtain ⟨x, _, hx, y, ⟨e1, _⟩, e2, ⟨rows, r1, r2⟩, m1, s1⟩ := forall₂_mem_right h hz
    rw [e1] at e2 r1
    have := hr x hx rows r1 k _ r2
    exact ⟨by rw [this], x, hx, e2, by rw [this]⟩

theorem agent_of (same : SameScenario num sym M vw vb sw sb) {a : String} {sl : Sim.Logic Env U} (h : (a, sl) ∈ sb.agents) :
    ∃ dl, (a, dl) ∈ vb.agents ∧ SameLogic num sym M vw sw a dl sl := by
  obtain ⟨⟨n, dl⟩, h1, h2, h3⟩ := forall₂_mem_right same.agents h
  dsimp only at h2 h3
  subst h2
  exact ⟨dl, h1, h3⟩

theorem agent_to (same : SameScenario num sym M vw vb sw sb) {a : String} {dl : Ver.Logic S G K V D} (h : (a, dl) ∈ vb.agents) :
    ∃ sl, (a, sl) ∈ sb.agents ∧ SameLogic num sym M vw sw a dl sl := by
  obtain ⟨⟨n, sl⟩, h1, h2, h3⟩ := forall₂_mem_left same.agents h
  dsimp only at h2 h3
  subst h2
  exact ⟨sl, h1, h3⟩

theorem names_eq (same : SameScenario num sym M vw vb sw sb) : vb.agents.map Prod.fst = sb.agents.map Prod.fst := by
  have h := same.agents
  revert h
  generalize vb.agents = l1
  generalize sb.agents = l2
  intro h
  induction h with
  | nil => rfl
  | cons h1 _ ih => simp only [List.map_cons, ih, h1.1]

/-- What the simulator's controller does, the verifier's specification allows. -/
theorem fires (hnum : Function.Injective num) (hsym : Function.Injective sym) {a : String} {dl : Ver.Logic S G K V D} {sl : Sim.Logic Env U}
    (hl : SameLogic num sym M vw sw a dl sl) {snap : Ver.Spec.Snap K V} {sd : Sim.StateDict U} (hs : Same num sym snap sd)
    {state : List K} {mode : List V} {dest init : List U} (hf : Spec.Fires sl (sw.sense a sd) (state.map num) (mode.map sym) dest init) :
    ∃ dest' post, dest = dest'.map sym ∧ init = post.map num ∧ Ver.Spec.Fires M vw.rd dl a snap state mode dest' post := by
  obtain ⟨choice, c1, c2, c3, c4, c5, c6, c7⟩ := hf
  rw [List.length_map] at c4 c5
  have hch : ∀ v, ∃ o : Option (Ver.Path S G K V D), (∀ q, choice v = some q → ∃ p, o = some p ∧ p ∈ dl.paths ∧ SamePath num sym M vw sw a dl p q) ∧
      (choice v = none → o = none) := by
    intro v
    cases hv : choice v with
    | none => exact ⟨none, by simp, by simp⟩
    | some q =>
      obtain ⟨p, hp, hpq⟩ := forall₂_mem_right hl.paths (c1 v q hv).1
      exact ⟨some p, by rintro q' h; cases h; exact ⟨p, rfl, hp, hpq⟩, by simp⟩
  choose ch hch1 hch2 using hch
  have back : ∀ v p, ch v = some p → ∃ q, choice v = some q ∧ p ∈ dl.paths ∧ SamePath num sym M vw sw a dl p q ∧ p.var = v ∧ M.holds p a snap := by
    intro v p hv
    cases hc : choice v with
    | none => rw [hch2 v hc] at hv; cases hv
    | some q =>
      obtain ⟨p', e1, e2, e3⟩ := hch1 v q hc
      rw [hv] at e1; cases e1
      obtain ⟨d1, d2, d3⟩ := c1 v q hc
      exact ⟨q, rfl, e2, e3, by rw [← e3.1]; exact d2, ((e3.2 snap sd hs).1).1 d3⟩
  have hdest : ∃ dest' : List V, dest = dest'.map sym := by
    apply lift_list
    intro y hy
    obtain ⟨i, hi, rfl⟩ := List.mem_iff_getElem.1 hy
    have := c6 i
    rw [List.getElem?_eq_getElem hi] at this
    split at this
    · rename_i q hq
      obtain ⟨v, hv, hq⟩ := Option.bind_eq_some_iff.1 hq
      obtain ⟨p, e1, e2, e3⟩ := hch1 v q hq
      obtain ⟨_, _, _, _, b3, b4⟩ := back v p e1
      have hm : p.var ∈ dl.disc := by rw [b3, ← hl.disc]; exact List.mem_of_getElem? hv
      obtain ⟨y, _, hy⟩ := (e3.2 snap sd hs).2.2 b4 hm
      injection this with this
      exact ⟨y, by rw [this, hy]⟩
    · rw [List.getElem?_map] at this
      obtain ⟨x, _, hx⟩ := Option.map_eq_some_iff.1 this.symm
      exact ⟨x, hx.symm⟩
  have hpost : ∃ post : List K, init = post.map num := by
    apply lift_list
    intro y hy
    obtain ⟨i, hi, rfl⟩ := List.mem_iff_getElem.1 hy
    have := c7 i
    rw [List.getElem?_eq_getElem hi] at this
    split at this
    · rename_i q hq
      obtain ⟨v, hv, hq⟩ := Option.bind_eq_some_iff.1 hq
      obtain ⟨p, e1, e2, e3⟩ := hch1 v q hq
      obtain ⟨_, _, _, _, b3, b4⟩ := back v p e1
      have hm : p.var ∈ dl.cont := by rw [b3, ← hl.cont]; exact List.mem_of_getElem? hv
      obtain ⟨e, y, _, _, hy⟩ := (e3.2 snap sd hs).2.1 b4 hm
      injection this with this
      exact ⟨y, by rw [this, hy]⟩
    · rw [List.getElem?_map] at this
      obtain ⟨x, _, hx⟩ := Option.map_eq_some_iff.1 this.symm
      exact ⟨x, hx.symm⟩
  obtain ⟨dest', rfl⟩ := hdest
  obtain ⟨post, rfl⟩ := hpost
  rw [List.length_map] at c4 c5
  refine ⟨dest', post, rfl, rfl, ch, ?_, ?_, ?_, c4.symm, c5.symm, ?_, ?_⟩
  · intro v p hv
    obtain ⟨q, _, b2, _, b3, b4⟩ := back v p hv
    exact ⟨b2, b3, b4⟩
  · intro p hp hh
    obtain ⟨q, hq, hpq⟩ := forall₂_mem_left hl.paths hp
    have := c2 q hq ((hpq.2 snap sd hs).1.2 hh)
    rw [hpq.1] at this
    obtain ⟨q', hq'⟩ := Option.isSome_iff_exists.1 this
    obtain ⟨p', e, _⟩ := hch1 _ q' hq'
    rw [e]; rfl
  · obtain ⟨v, hv⟩ := c3
    obtain ⟨q', hq'⟩ := Option.isSome_iff_exists.1 hv
    obtain ⟨p', e, _⟩ := hch1 _ q' hq'
    exact ⟨v, by rw [e]; rfl⟩
  · intro i v y hv hy
    have h6 := c6 i
    rw [List.getElem?_map, hy, hl.disc, hv] at h6
    simp only [Option.map_some, Option.bind_some] at h6
    cases hc : choice v with
    | none =>
      rw [hc] at h6
      rw [hch2 v hc]
      dsimp only at h6 ⊢
      rw [List.getElem?_map] at h6
      obtain ⟨x, hx, hxy⟩ := Option.map_eq_some_iff.1 h6.symm
      rw [hx, hsym hxy]
    | some q =>
      rw [hc] at h6
      dsimp only at h6
      obtain ⟨p, e1, e2, e3⟩ := hch1 v q hc
      rw [e1]
      dsimp only
      obtain ⟨_, _, _, _, b3, b4⟩ := back v p e1
      obtain ⟨y', n1, n2⟩ := (e3.2 snap sd hs).2.2 b4 (by rw [b3]; exact List.mem_of_getElem? hv)
      injection h6 with h6
      rw [n2] at h6
      rw [hsym h6]; exact n1
  · intro i v hv
    have h7 := c7 i
    rw [List.getElem?_map, hl.cont, hv] at h7
    simp only [Option.bind_some] at h7
    cases hc : choice v with
    | none =>
      rw [hc] at h7
      rw [hch2 v hc]
      dsimp only at h7 ⊢
      rw [List.getElem?_map] at h7
      exact Option.map_injective hnum h7
    | some q =>
      rw [hc] at h7
      dsimp only at h7
      obtain ⟨p, e1, e2, e3⟩ := hch1 v q hc
      rw [e1]
      dsimp only
      obtain ⟨_, _, _, _, b3, b4⟩ := back v p e1
      obtain ⟨e, x, n1, n2, n3⟩ := (e3.2 snap sd hs).2.1 b4 (by rw [b3]; exact List.mem_of_getElem? hv)
      obtain ⟨x', hx, hxy⟩ := Option.map_eq_some_iff.1 h7
      rw [n3] at hxy
      exact ⟨e, n1, x, by rw [hx, hnum hxy], n2⟩

theorem trackOf_map {T : List String} {m : List V} {o : Option U} (h : Spec.TrackOf T (m.map sym) o) : ∃ o' : Option V, o = o'.map sym ∧ Spec.TrackOf T m o' := by
  cases h with
  | none h => exact ⟨none, rfl, .none h⟩
  | some t v h1 h2 =>
    rw [List.getElem?_map] at h2
    obtain ⟨v', h3, rfl⟩ := Option.map_eq_some_iff.1 h2
    exact ⟨some v', rfl, .some t v' h1 h3⟩

theorem modeOf_map {T : List String} {m : List V} {o : List U} (h : Spec.ModeOf T (m.map sym) o) : ∃ o' : List V, o = o'.map sym ∧ Spec.ModeOf T m o' := by
  cases h with
  | all h => exact ⟨m, rfl, .all h⟩
  | only t h1 h2 => exact ⟨[], rfl, .only t h1 h2⟩
  | first t i v h1 h2 h3 h4 h5 =>
    rw [List.getElem?_map] at h5
    obtain ⟨v', h6, rfl⟩ := Option.map_eq_some_iff.1 h5
    exact ⟨[v'], rfl, .first t i v' h1 h2 h3 h4 h6⟩

theorem permits (hsym : Function.Injective sym) (same : SameScenario num sym M vw vb sw sb) {a : String} {dl : Ver.Logic S G K V D} {sl : Sim.Logic Env U}
    (hl : SameLogic num sym M vw sw a dl sl) {src dest : List V} (h : Spec.MapPermits sw sl (src.map sym) (dest.map sym)) :
    Ver.Spec.MapPermits vw dl src dest := by
  obtain ⟨sm, st, dm, dt, h1, h2, h3, h4, h5⟩ := h
  rw [hl.discType] at h1 h2 h3 h4
  obtain ⟨sm, rfl, k1⟩ := modeOf_map h1
  obtain ⟨st, rfl, k2⟩ := trackOf_map h2
  obtain ⟨dm, rfl, k3⟩ := modeOf_map h3
  obtain ⟨dt, rfl, k4⟩ := trackOf_map h4
  refine ⟨sm, st, dm, dt, k1, k2, k3, k4, ?_⟩
  rcases h5 with ⟨e1, e2⟩ | e
  · exact .inl ⟨List.map_injective_iff.2 hsym e1, Option.map_injective hsym e2⟩
  · rw [same.map] at e
    exact .inr (Option.map_injective hsym e)

/-- A node that is handed to a worker, at the beginning of the phase `φ`, after `g` steps. -/
structure At (num : K → U) (sym : V → U) (vb : Ver.Body S G K V D) (sw : Sim.World Env U) (sb : Sim.Body Env U) (dt : ℚ) (N : Nat)
    (n : Work (Sim.Body Env U) (Sim.Trace U)) (φ : Phase K V) (g : Nat) : Prop where
  base : Base sym vb sb φ n.body
  start : n.start = (g : ℚ) * dt
  given : ∀ a ∈ vb.agents, (∃ rows, Dict.get? n.trace a.1 = some rows ∧ ∀ (j : Nat) (row : Sim.Row U), rows[j]? = some row →
      row = ⟨((g + j : Nat) : ℚ) * dt, (φ.path a.1 j).map num⟩) ∨
    (Dict.get? n.trace a.1 = none ∧ Dict.get? n.body.init a.1 = some ((φ.path a.1 0).map num) ∧
      ∀ (j : Nat) (row : Sim.Row U), (sw.sim a.1 ((φ.mode a.1).map sym) ((φ.path a.1 0).map num) (((N - g : Nat) : ℚ) * dt))[j]? = some row →
        row = ⟨(j : ℚ) * dt, (φ.path a.1 j).map num⟩)

theorem At.rows {dt : ℚ} {N : Nat} {n : Work (Sim.Body Env U) (Sim.Trace U)} {φ : Phase K V} {g : Nat} (h : At num sym vb sw sb dt N n φ g) :
    RowsAre num vb dt φ g n.trace := by
  intro a ha rows hr
  rcases h.given a ha with ⟨rows', h1, h2⟩ | ⟨h1, _⟩
  · rw [hr] at h1; cases h1; exact h2
  · rw [hr] at h1; cases h1

theorem At.full (same : SameScenario num sym M vw vb sw sb) {dt : ℚ} {N : Nat} {n : Work (Sim.Body Env U) (Sim.Trace U)} {φ : Phase K V} {g : Nat}
    (h : At num sym vb sw sb dt N n φ g) {full : Sim.Trace U} (hf : Spec.FullTraces sw n.body n.start (((N - g : Nat) : ℚ) * dt) n.trace full) :
    RowsAre num vb dt φ g full := by
  intro a ha rows hr j row hj
  obtain ⟨sl, hsl, _⟩ := agent_to same (a := a.1) (dl := a.2) ha
  have := hf (a.1, sl) (by rw [h.base.agents]; exact hsl)
  dsimp only at this
  rcases h.given a ha with ⟨rows', h1, h2⟩ | ⟨h1, h2, h3⟩
  · rw [h1] at this
    dsimp only at this
    rw [hr] at this; cases this
    exact h2 j row hj
  · rw [h1] at this
    dsimp only at this
    obtain ⟨m, i, g1, g2, g3⟩ := this
    rw [h.base.mode a ha] at g1; cases g1
    rw [h2] at g2; cases g2
    rw [hr] at g3; cases g3
    rw [List.getElem?_map] at hj
    obtain ⟨r0, k1, rfl⟩ := Option.map_eq_some_iff.1 hj
    rw [h3 j r0 k1, h.start]
    simp only [Sim.Row.mk.injEq, and_true]
    push_cast
    ring

theorem snapshot_mono {b : Sim.Body Env U} {tr : Sim.Trace U} {i k : Nat} (hik : i ≤ k) {sd : Sim.StateDict U} (h : Spec.Snapshot b tr k sd) :
    ∃ sd', Spec.Snapshot b tr i sd' := by
  unfold Spec.Snapshot at h ⊢
  generalize b.agents = l at h
  induction h with
  | nil => exact ⟨[], .nil⟩
  | @cons a x _ _ h1 _ ih =>
    obtain ⟨sd', ih⟩ := ih
    obtain ⟨e1, ⟨rows, e2, e3⟩, e4, e5⟩ := h1
    have hlt : i < rows.length := by
      have := (List.getElem?_eq_some_iff.1 e3).1
      omega
    exact ⟨(x.1, rows[i], x.2.2) :: sd', .cons ⟨e1, ⟨rows, e2, List.getElem?_eq_getElem hlt⟩, e4, e5⟩ ih⟩

/-- No guard at the earlier samples: the phase is quiet. -/
theorem quiet_of (same : SameScenario num sym M vw vb sw sb) {φ : Phase K V} {b : Sim.Body Env U} (hb : Base sym vb sb φ b) {dt : ℚ} {g : Nat}
    {tr : Sim.Trace U} (hr : RowsAre num vb dt φ g tr) {k : Nat} (h : ∀ j, j < k → Spec.NoGuard sw b tr j ∧ ∃ sd, Spec.Snapshot b tr j sd) :
    Quiet M vb φ k := by
  intro j a dl p hj hc hp hh
  obtain ⟨h1, sd, hs⟩ := h j hj
  obtain ⟨sl, hsl, hl⟩ := agent_to same hc.1
  obtain ⟨q, hq, hpq⟩ := forall₂_mem_left hl.paths hp
  refine h1 a sl _ ⟨by rw [hb.agents]; exact hsl, by rw [hl.nargs]; exact hc.2⟩ ⟨sd, hs, rfl⟩ ⟨q, hq, ?_⟩
  exact (hpq.2 _ sd (snapshot_same same hb hr hs).1).1.2 hh

/-- What the nodes of the simulator's tree show: the modes of the phases and, as long as no guard has held, their states. -/
inductive Shown {A : Type} (num : K → U) (sym : V → U) (sw : Sim.World Env U) (vb : Ver.Body S G K V D) (dt : ℚ) (N : Nat) :
    Nat → List (Phase K V × Nat) → List (Verif.Spec.Label (Sim.Body Env U) (Sim.Trace U) A) → Prop
  | nil {g} : Shown num sym sw vb dt N g [] []
  | cons {g φ n rest us} {u : Verif.Spec.Label (Sim.Body Env U) (Sim.Trace U) A} :
      (∀ a ∈ vb.agents, Dict.get? u.body.mode a.1 = some ((φ.mode a.1).map sym)) →
      (∀ (k : Nat) (sd : Sim.StateDict U), Spec.Snapshot u.body u.trace k sd → (∀ j, j < k → Spec.NoGuard sw u.body u.trace j) →
        ∀ x ∈ sd, x.2.1.time < (N : ℚ) * dt → k ≤ n ∧ g + k < N ∧ x.2.1.time = ((g + k : Nat) : ℚ) * dt ∧
          ∃ a ∈ vb.agents, x.1 = a.1 ∧ x.2.1.state = (φ.path a.1 k).map num) →
      Shown num sym sw vb dt N (g + n) rest us → Shown num sym sw vb dt N g ((φ, n) :: rest) (u :: us)

theorem lt_of_time {dt : ℚ} (hdt : 0 < dt) {k N : Nat} (h : (k : ℚ) * dt < (N : ℚ) * dt) : k < N := by
  have := lt_of_mul_lt_mul_right h hdt.le
  exact_mod_cast this

/-- The last node of a path. -/
theorem last_shown {A : Type} (same : SameScenario num sym M vw vb sw sb) {dt : ℚ} (hdt : 0 < dt) {N : Nat} {φ : Phase K V} {g : Nat}
    {u : Verif.Spec.Label (Sim.Body Env U) (Sim.Trace U) A} (hb : Base sym vb sb φ u.body) (hr : RowsAre num vb dt φ g u.trace) :
    ∃ n, Quiet M vb φ n ∧ Shown num sym sw vb dt N g [(φ, n)] [u] := by
  classical
  have hex : ∃ n, ¬ Spec.NoGuard sw u.body u.trace n ∨ ¬ (∃ sd, Spec.Snapshot u.body u.trace (n + 1) sd) ∨ n = N := ⟨N, .inr (.inr rfl)⟩
  refine ⟨Nat.find hex, quiet_of same hb hr ?_, .cons hb.mode ?_ .nil⟩
  · intro j hj
    have := Nat.find_min hex hj
    simp only [not_or, not_not] at this
    obtain ⟨h1, ⟨sd, h2⟩, _⟩ := this
    exact ⟨h1, snapshot_mono (by omega) h2⟩
  · intro k sd hs hq x hx ht
    obtain ⟨_, h2⟩ := snapshot_same same hb hr hs
    obtain ⟨h3, h4⟩ := h2 x hx
    rw [h3] at ht
    have hk := lt_of_time hdt ht
    refine ⟨?_, hk, h3, h4⟩
    by_contra hlt
    have hlt := not_le.1 hlt
    rcases Nat.find_spec hex with h | h | h
    · exact h (hq _ hlt)
    · exact h (snapshot_mono (by omega) hs)
    · omega

/-- A node with children. -/
theorem step_shown (hnum : Function.Injective num) (hsym : Function.Injective sym) (same : SameScenario num sym M vw vb sw sb) (swf : Spec.Body.WF sb)
    (flow : String → List V → (Nat → List K) → Prop) {dt : ℚ} (hdt : 0 < dt) {N : Nat} (hsim : SimulatesFlow num sym sw flow dt N)
    {round : ℚ → ℚ} (hround : ∀ k : Nat, round ((k : ℚ) * dt) = (k : ℚ) * dt)
    {n : Work (Sim.Body Env U) (Sim.Trace U)} {φ : Phase K V} {g : Nat} (h : At num sym vb sw sb dt N n φ g)
    {r : Result (Sim.Body Env U) (Sim.Trace U) (Option (Dict String (List String)))}
    (ho : Sim.simulateOne sw n (((N - g : Nat) : ℚ) * dt) = .ok r) {c : Child (Sim.Body Env U) (Sim.Trace U)} (hc : c ∈ r.next)
    {st : ℚ} {hits : Sim.Hits} {height : Nat} (hone : OneAtATime sw ⟨height, st, n.body, r.trace, hits⟩) :
    ∃ (idx : Nat) (φ' : Phase K V), Quiet M vb φ idx ∧ Switches M vw vb flow φ idx φ' ∧
      At num sym vb sw sb dt N ⟨n.height + 1, round c.start, c.body, c.trace⟩ φ' (g + idx) ∧
      ∀ (k : Nat) (sd : Sim.StateDict U), Spec.Snapshot n.body r.trace k sd →
        ∀ x ∈ sd, x.2.1.time < (N : ℚ) * dt → k ≤ idx ∧ g + k < N ∧ x.2.1.time = ((g + k : Nat) : ℚ) * dt ∧
          ∃ a ∈ vb.agents, x.1 = a.1 ∧ x.2.1.state = (φ.path a.1 k).map num := by
  have hag := h.base.agents
  have wf : Spec.Body.WF n.body := ⟨by rw [hag]; exact swf.names, by rw [hag]; exact swf.logics⟩
  obtain ⟨full, f, sp⟩ := Sim.simulateOne_spec wf ho
  obtain ⟨ha, htr, hcut, hkids⟩ : f.asserts = none ∧ f.trans ≠ [] ∧ Spec.CutTraces n.body (List.take (f.idx + 1)) full r.trace ∧
      List.Forall₂ (Sim.ChildSpec n.body full f.idx) (product (f.trans.map Prod.snd)) r.next := by
    rcases sp.cases with ⟨_, g, _⟩ | ⟨_, _, g, _⟩ | g
    · rw [g] at hc; simp at hc
    · rw [g] at hc; simp at hc
    · exact g
  obtain ⟨combo, hcm, cs⟩ := forall₂_mem_right hkids hc
  obtain ⟨k1, k2⟩ := Props.combo_canSwitch wf sp ha hcut hcm
  have hfull := h.full same sp.traces
  have hrt : RowsAre num vb dt φ g r.trace := by
    intro a ha rows hr j row hj
    obtain ⟨sl, hsl, _⟩ := agent_to same (a := a.1) (dl := a.2) ha
    obtain ⟨rows', q1, q2⟩ := hcut (a.1, sl) (by rw [hag]; exact hsl)
    rw [hr] at q2; cases q2
    rw [List.getElem?_take] at hj
    split at hj
    · exact hfull a ha rows' q1 j row hj
    · cases hj
  -- exactly one agent switches
  obtain ⟨t, rfl⟩ : ∃ t, combo = [t] := by
    match combo, k1, k2 with
    | [], k1, _ => simp only [List.map_nil] at k1; exact absurd (List.map_eq_nil_iff.1 k1.symm) htr
    | [t], _, _ => exact ⟨t, rfl⟩
    | t :: t' :: l, k1, k2 =>
      exfalso
      have e1 := (k2 t (by simp)).1
      have e2 := (k2 t' (by simp)).1
      obtain ⟨dl, env, rows, row, mode, p1, p2, p3, p4, p5, ⟨ch, p6, _, ⟨v, p7⟩, _⟩, _⟩ := e1
      obtain ⟨dl', env', rows', row', mode', p1', p2', p3', p4', p5', ⟨ch', p6', _, ⟨v', p7'⟩, _⟩, _⟩ := e2
      obtain ⟨q, hq⟩ := Option.isSome_iff_exists.1 p7
      obtain ⟨q', hq'⟩ := Option.isSome_iff_exists.1 p7'
      have heq := hone f.idx t.agent t'.agent dl dl' env env' p1 p1' p2 p2' ⟨q, (p6 v q hq).1, (p6 v q hq).2.2⟩ ⟨q', (p6' v' q' hq').1, (p6' v' q' hq').2.2⟩
      have hnd : (f.trans.map Prod.fst).Nodup := by
        obtain ⟨_, _, _, _, fs⟩ := sp.found
        rcases fs.cases with ⟨_, g, _⟩ | ⟨s, _, _, g, _⟩ | ⟨s, ss, _, _, _, hcol⟩
        · exact absurd g htr
        · rw [g] at ha; cases ha
        · exact (Sim.collect_spec hcol).1
      rw [← k1] at hnd
      simp only [List.map_cons, List.nodup_cons, List.mem_cons, not_or] at hnd
      exact hnd.1.1 heq
  obtain ⟨dl', env, rows, row, mode, p1, ⟨sd, p2, rfl⟩, p3, p4, p5, p6, p7⟩ := (k2 t (by simp)).1
  obtain ⟨dl, hdl, hl⟩ := agent_of same (a := t.agent) (sl := dl') (by rw [← hag]; exact p1.1)
  obtain ⟨hsame, _⟩ := snapshot_same same h.base hrt p2
  rw [h.base.mode _ hdl] at p5; cases p5
  rw [hrt _ hdl rows p3 f.idx row p4] at p6
  obtain ⟨dest, post, e1, e2, hfire⟩ := fires hnum hsym hl hsame p6
  rw [e1] at p7
  have hperm := permits hsym same hl p7
  obtain ⟨ρ, r1, r2, r3, r4⟩ := hsim t.agent dest post (g + f.idx)
  have hnames : (vb.agents.map Prod.fst).Nodup := by rw [names_eq same]; exact swf.names
  have huniq : ∀ a ∈ vb.agents, a.1 = t.agent → a.2 = dl := by
    intro a ha e
    have e1 := Dict.get?_of_mem hnames (k := a.1) (v := a.2) ha
    rw [e, Dict.get?_of_mem hnames hdl] at e1
    injection e1 with e1; exact e1.symm
  have hml := h.base.modeLen _ hdl
  have hpl := h.base.len _ hdl f.idx
  dsimp only at hml hpl
  have hfire' := hfire
  obtain ⟨_, _, _, _, l1, l2, _⟩ := hfire'
  have hstart : c.start = ((g + f.idx : Nat) : ℚ) * dt := by
    obtain ⟨a, rest, rws, rw0, s1, s2, s3, s4⟩ := cs.start
    obtain ⟨dl0, hdl0, _⟩ := agent_of same (a := a.1) (sl := a.2) (by rw [← hag, s1]; simp)
    rw [s4, hfull _ hdl0 rws s2 _ _ s3]
  have hmem : (t.agent, φ.path t.agent f.idx, φ.mode t.agent, (Dict.get? vb.static t.agent).getD []) ∈ φ.snap vb f.idx :=
    List.mem_map.2 ⟨(t.agent, dl), hdl, rfl⟩
  refine ⟨f.idx, ⟨fun o => if o = t.agent then dest else φ.mode o, fun o k => if o = t.agent then ρ k else φ.path o (f.idx + k)⟩, ?_, ?_, ?_, ?_⟩
  · refine quiet_of same h.base hfull ?_
    intro j hj
    obtain ⟨_, _, _, _, fs⟩ := sp.found
    refine ⟨(fs.before j hj).1, ?_⟩
    obtain ⟨sd', hsd'⟩ := snapshot_mono (i := j) (by omega) p2
    exact ⟨sd', (Sim.snapshot_cut (idx := f.idx + 1) (by omega) hcut sd').1 hsd'⟩
  · refine ⟨t.agent, dl, ⟨φ.path t.agent f.idx, φ.mode t.agent, _, ⟨hdl, by rw [← hl.nargs]; exact p1.2⟩, hmem, hpl, hml, ?_, ?_⟩, ?_, ?_⟩
    · dsimp only
      rw [if_pos rfl, if_pos rfl, r2]; exact hfire
    · dsimp only
      rw [if_pos rfl]; exact hperm
    · dsimp only
      simp only [if_pos]; exact r1
    · intro o ho
      simp only [if_neg ho, true_and, implies_true]
  · refine ⟨⟨?_, ?_, ?_, ?_, ?_⟩, ?_, ?_⟩
    · dsimp only; rw [cs.agents]; exact hag
    · dsimp only; rw [cs.static]; exact h.base.static
    · intro a ha
      dsimp only
      by_cases e : a.1 = t.agent
      · rw [if_pos e, e, (cs.moved t (by simp)).1, e1]
      · obtain ⟨sl, hsl, _⟩ := agent_to same (a := a.1) (dl := a.2) ha
        rw [if_neg e, (cs.stayed (a.1, sl) (by rw [hag]; exact hsl) (by simp [e])).1]
        exact h.base.mode a ha
    · intro a ha
      dsimp only
      by_cases e : a.1 = t.agent
      · rw [if_pos e, huniq a ha e, ← l1]; exact hml
      · rw [if_neg e]; exact h.base.modeLen a ha
    · intro a ha k
      dsimp only
      by_cases e : a.1 = t.agent
      · rw [if_pos e, huniq a ha e, r3, ← l2]; exact hpl
      · rw [if_neg e]; exact h.base.len a ha _
    · dsimp only; rw [hstart, hround]
    · intro a ha
      dsimp only
      by_cases e : a.1 = t.agent
      · right
        obtain ⟨m1, m2, m3⟩ := cs.moved t (by simp)
        simp only [e, if_true, r2]
        exact ⟨m3, by rw [m2, e2], r4⟩
      · left
        obtain ⟨sl, hsl, _⟩ := agent_to same (a := a.1) (dl := a.2) ha
        obtain ⟨_, rws, rw0, m2, m3, m4, m5⟩ := cs.stayed (a.1, sl) (by rw [hag]; exact hsl) (by simp [e])
        refine ⟨_, m5, ?_⟩
        intro j row hj
        rw [List.getElem?_drop] at hj
        rw [hfull a ha rws m2 _ _ hj, if_neg e, Nat.add_assoc]
  · intro k sd' hs x hx ht
    obtain ⟨_, h2⟩ := snapshot_same same h.base hrt hs
    obtain ⟨h3, a, ha, h4, h5⟩ := h2 x hx
    rw [h3] at ht
    refine ⟨?_, lt_of_time hdt ht, h3, a, ha, h4, h5⟩
    obtain ⟨a0, ha0, _, ⟨rws, q1, q2⟩, _⟩ := forall₂_mem_right hs hx
    obtain ⟨rws', q3, q4⟩ := hcut a0 ha0
    rw [q4] at q1; cases q1
    have := (List.getElem?_eq_some_iff.1 q2).1
    rw [List.length_take] at this
    omega

/-- Paths of the simulator's tree, on which never two agents switch at the same time, are executions. -/
theorem path_execution (hnum : Function.Injective num) (hsym : Function.Injective sym) (same : SameScenario num sym M vw vb sw sb) (swf : Spec.Body.WF sb)
    (flow : String → List V → (Nat → List K) → Prop) {dt : ℚ} (hdt : 0 < dt) {N : Nat} (hsim : SimulatesFlow num sym sw flow dt N)
    (cfg : Engine.Cfg (Sim.Body Env U) (Sim.Trace U) Sim.Hits) (hcfg : cfg.step = Sim.simStep sw) (hhor : cfg.horizon = (N : ℚ) * dt)
    (hround : ∀ k : Nat, cfg.round10 ((k : ℚ) * dt) = (k : ℚ) * dt ∧ cfg.roundN ((k : ℚ) * dt) = (k : ℚ) * dt) (drop : Bool) :
    ∀ (us : List (Verif.Spec.Label (Sim.Body Env U) (Sim.Trace U) Sim.Hits)) (t : Verif.Spec.RTree (Verif.Spec.Label (Sim.Body Env U) (Sim.Trace U) Sim.Hits)),
      PathIn t us → ∀ (n : Work (Sim.Body Env U) (Sim.Trace U)) (φ : Phase K V) (g : Nat),
      Verif.Spec.Explores (Verif.Spec.problem cfg drop) n.height n.start n.body n.trace t → At num sym vb sw sb dt N n φ g →
      (∀ u ∈ us.dropLast, OneAtATime sw u) → (∀ u ∈ us, u.start < (N : ℚ) * dt) →
      ∃ (n0 : Nat) (rest : List (Phase K V × Nat)), Execution M vw vb flow ((φ, n0) :: rest) ∧ Shown num sym sw vb dt N g ((φ, n0) :: rest) us ∧
        g + (((φ, n0) :: rest).dropLast.map Prod.snd).sum < N := by
  intro us t hp
  induction hp with
  | @root t =>
    intro n φ g hx hat _ hst
    obtain ⟨_, e1, e2, h3⟩ := explores_node hx
    have hg : g < N := by
      have := hst t.label (by simp)
      rw [e1, hat.start] at this
      exact lt_of_time hdt this
    have hb : Base sym vb sb φ t.label.body := by rw [e2]; exact hat.base
    have hr : RowsAre num vb dt φ g t.label.trace := by
      rcases h3 with ⟨_, _, h3, _⟩ | ⟨_, h3, _⟩
      · rw [h3]; exact hat.rows
      · rw [h3]
        have hrem : cfg.round10 (cfg.horizon - n.start) = ((N - g : Nat) : ℚ) * dt := by
          rw [hhor, hat.start, ← sub_mul, ← Nat.cast_sub hg.le]; exact (hround _).1
        simp only [Verif.Spec.problem, hcfg]
        show RowsAre num vb dt φ g (Sim.simStep sw n (cfg.round10 (cfg.horizon - n.start))).trace
        rw [hrem]
        unfold Sim.simStep
        have wf : Spec.Body.WF n.body := ⟨by rw [hat.base.agents]; exact swf.names, by rw [hat.base.agents]; exact swf.logics⟩
        cases ho : Sim.simulateOne sw n (((N - g : Nat) : ℚ) * dt) with
        | error e => exact hat.rows
        | ok r =>
          obtain ⟨full, f, sp⟩ := Sim.simulateOne_spec wf ho
          have hfull := hat.full same sp.traces
          have cut : ∀ m, Spec.CutTraces n.body (List.take m) full r.trace → RowsAre num vb dt φ g r.trace := by
            intro m hcut a ha rows hr j row hj
            obtain ⟨sl, hsl, _⟩ := agent_to same (a := a.1) (dl := a.2) ha
            obtain ⟨rows', q1, q2⟩ := hcut (a.1, sl) (by rw [hat.base.agents]; exact hsl)
            rw [hr] at q2; cases q2
            rw [List.getElem?_take] at hj
            split at hj
            · exact hfull a ha rows' q1 j row hj
            · cases hj
          dsimp only
          rcases sp.cases with ⟨_, _, g⟩ | ⟨_, _, _, g⟩ | ⟨_, _, g, _⟩
          · split at g
            · rw [g]; exact hfull
            · exact cut _ g
          · rw [g]; exact hfull
          · exact cut _ g
    obtain ⟨n0, q1, q2⟩ := last_shown (N := N) same hdt hb hr
    exact ⟨n0, [], .last q1, q2, by simpa using hg⟩
  | @down t u us hu hp ih =>
    intro n φ g hx hat hone hst
    obtain ⟨_, e1, e2, h3⟩ := explores_node hx
    have hg : g < N := by
      have := hst t.label (by simp)
      rw [e1, hat.start] at this
      exact lt_of_time hdt this
    have hrem : cfg.round10 (cfg.horizon - n.start) = ((N - g : Nat) : ℚ) * dt := by
      rw [hhor, hat.start, ← sub_mul, ← Nat.cast_sub hg.le]; exact (hround _).1
    rcases h3 with ⟨_, h3, _⟩ | ⟨_, h3, _, h5⟩
    · rw [h3] at hu; simp at hu
    · obtain ⟨c, hc, hcx⟩ := forall₂_mem_right h5 hu
      have hc' : c ∈ (Sim.simStep sw n (((N - g : Nat) : ℚ) * dt)).next := by
        rw [← hrem, ← hcfg]; exact hc
      have h3' : t.label.trace = (Sim.simStep sw n (((N - g : Nat) : ℚ) * dt)).trace := by
        rw [← hrem, ← hcfg]; exact h3
      unfold Sim.simStep at hc' h3'
      cases ho : Sim.simulateOne sw n (((N - g : Nat) : ℚ) * dt) with
      | error e => rw [ho] at hc'; simp at hc'
      | ok r =>
        rw [ho] at hc' h3'
        dsimp only at hc' h3'
        obtain ⟨us', hus⟩ : ∃ us', us = u.label :: us' := by
          cases hp
          · exact ⟨_, rfl⟩
          · exact ⟨_, rfl⟩
        have hone' : OneAtATime sw ⟨n.height, n.start, n.body, r.trace, t.label.hits⟩ := by
          have := hone t.label (by rw [hus]; simp)
          unfold OneAtATime at this ⊢
          rw [e2, h3'] at this
          exact this
        obtain ⟨idx, φ', k1, k2, k3, k4⟩ := step_shown hnum hsym same swf flow hdt hsim (fun k => (hround k).2) hat ho hc' hone'
        obtain ⟨n0, rest, g1, g2, g3⟩ := ih ⟨n.height + 1, cfg.roundN c.start, c.body, c.trace⟩ φ' (g + idx) hcx k3
          (fun v hv => hone v (by
            rw [hus] at hv ⊢
            exact List.mem_cons_of_mem _ hv))
          (fun v hv => hst v (by simp [hv]))
        refine ⟨idx, (φ', n0) :: rest, .switch k1 k2 g1, .cons ?_ ?_ g2, ?_⟩
        · rw [e2]; exact hat.base.mode
        · rw [e2, h3']
          intro k sd hs _
          exact k4 k sd hs
        · simp only [List.dropLast_cons₂, List.map_cons, List.sum_cons]
          omega

end

end Verif.Proofs.Both
