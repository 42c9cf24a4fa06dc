import Verif.Proofs.Assembled3

/-! The answers of the guards and asserts of a scenario are right: the nodes. -/

set_option autoImplicit false
set_option linter.unusedSectionVars false

namespace Verif.Proofs.Asm

open Verif.Asm Verif.Asm.Spec Verif.Grd Verif.Grd.Spec Verif.Sns Verif.Rect.Spec Verif.Rst.Spec
open Verif.Ver.Spec (Boxes Controlled InTube Asked HitAt ContainedAt Faithful AssertsFaithful Snap Meaning)

variable {K Seg : Type} [Field K] [LinearOrder K] [IsStrictOrderedRing K]
variable {T : Tools K Seg} {sc : Scenario K} {sig : String → Sig} {b : Ver.Body (Sense K) (Ready K) K (Grd.Val K) (Reads K)} {tr : Ver.Trace K}
  {w : Ver.World (Sense K) K (Grd.Val K)}

theorem boxes_names {b : Ver.Body (Sense K) (Ready K) K (Grd.Val K) (Reads K)} {i : Nat} {sd : Ver.StateDict K (Grd.Val K)} (h : Boxes b tr i sd) :
    sd.map Prod.fst = b.agents.map Prod.fst := by
  unfold Boxes at h
  generalize b.agents = l at h
  induction h with
  | nil => rfl
  | cons h _ ih => rw [List.map_cons, List.map_cons, ih, h.1]

theorem boxes_same {i j : Nat} {sd sd' : Ver.StateDict K (Grd.Val K)} {snap : Snap K (Grd.Val K)} (h : Boxes b tr i sd) (h' : Boxes b tr j sd')
    (hin : Ver.Spec.Within snap sd) : Same snap sd' := by
  have hin' := same_of_within hin
  unfold Boxes at h h'
  unfold Same at hin' ⊢
  clear hin
  generalize b.agents = l at h h'
  induction h generalizing sd' snap with
  | nil => cases h'; cases hin'; exact .nil
  | cons h _ ih =>
    cases h' with
    | cons g gs =>
      cases hin' with
      | cons k ks =>
        refine .cons ⟨k.1.trans (h.1.trans g.1.symm), ?_⟩ (ih ks gs)
        rw [k.2]
        have e1 := h.2.2.1.symm.trans g.2.2.1
        have e2 := h.2.2.2.symm.trans g.2.2.2
        exact Prod.ext (Option.some.inj e1) (Option.some.inj e2)

theorem agents_names (hag : b.agents = (bodyOf T sc).agents) : b.agents.map Prod.fst = sc.agents.map Prod.fst := by
  rw [hag]
  simp [bodyOf]

theorem controlled_iff (hag : b.agents = (bodyOf T sc).agents) {a : String} {dl : Ver.Logic (Sense K) (Ready K) K (Grd.Val K) (Reads K)} :
    Controlled b a dl ↔ ∃ c, (a, c) ∈ sc.agents ∧ c.args ≠ [] ∧ dl = logicOf T c := by
  unfold Controlled
  rw [hag]
  simp only [bodyOf, List.mem_map, Prod.mk.injEq]
  constructor
  · rintro ⟨⟨⟨a', c⟩, hm, rfl, rfl⟩, hn⟩
    refine ⟨c, hm, ?_, rfl⟩
    intro he
    simp [logicOf, he] at hn
  · rintro ⟨c, hm, hne, rfl⟩
    refine ⟨⟨(a, c), hm, rfl, rfl⟩, ?_⟩
    simpa [logicOf] using hne

theorem unique (hsc : GoodScenario sc sig) {a : String} {c c' : Controller K} (h : (a, c) ∈ sc.agents) (h' : (a, c') ∈ sc.agents) : c = c' := by
  have h1 := Dict.get?_of_mem hsc.names h
  have h2 := Dict.get?_of_mem hsc.names h'
  rw [h1] at h2
  exact Option.some.inj h2

/-- What the agent senses at a step. -/
theorem at_step (hsc : GoodScenario sc sig) (hag : b.agents = (bodyOf T sc).agents) (hw : w.sense = senseIn sc) (hfit : TubesFit T sc sig b tr)
    {a : String} {c : Controller K} (hc : (a, c) ∈ sc.agents) (harg : c.args ≠ []) {i : Nat} {sd : Ver.StateDict K (Grd.Val K)} (hb : Boxes b tr i sd) :
    (sd.map Prod.fst).Nodup ∧ ∃ e s, e ∈ sd ∧ e.1 = a ∧ w.sense a sd = .ok s ∧ senseIn sc a sd = .ok s ∧ Shown (sig a) a sd e s ∧
      s.len = [("others", sc.agents.length - 1)] := by
  have hnames := (boxes_names hb).trans (agents_names hag)
  have hn : (sd.map Prod.fst).Nodup := by rw [hnames]; exact hsc.names
  have hmem : a ∈ sd.map Prod.fst := by rw [hnames]; exact List.mem_map.2 ⟨(a, c), hc, rfl⟩
  obtain ⟨e, he, hea⟩ := List.mem_map.1 hmem
  have hshape := hfit.shapes i sd hb a c hc harg
  obtain ⟨s, hs, hsh⟩ := sensed_shown (hsc.declared a c hc harg) hn he hea ((hshape e he).1 hea) (fun n df h o ho hoa => (hshape o ho).2 hoa n df h)
  have hsense : senseIn sc a sd = .ok s := by
    unfold senseIn
    rw [Dict.get?_of_mem hsc.names hc]
    exact hs
  refine ⟨hn, e, s, he, hea, by rw [hw]; exact hsense, hsense, hsh, ?_⟩
  rw [hsh.len]
  have := congrArg List.length hnames
  simp only [List.length_map] at this
  rw [this]

theorem len_ok {s : Sensed K (Iv K)} (h : s.len = [("others", sc.agents.length - 1)]) : LenSensed (ground T sc) s.len := by
  intro l n hl
  rw [h, Dict.get?_cons] at hl
  split at hl
  · cases hl; rfl
  · cases hl

theorem others_nodup {c : Controller K} {sg : Sig} (h : Declares c sg) : ∀ n df, sg.others = some (n, df) → (df.cont ++ (df.disc ++ df.static)).Nodup := by
  intro n df hn
  have := h.others
  rw [hn] at this
  exact this.2.1

/-- The answer about a guard or an assert is right. -/
theorem guard_right (hsc : GoodScenario sc sig) (hag : b.agents = (bodyOf T sc).agents) (hw : w.sense = senseIn sc) (hfit : TubesFit T sc sig b tr)
    (hcor : Correct (ground T sc) T.solver) {a : String} {c : Controller K} (hc : (a, c) ∈ sc.agents) (harg : c.args ≠ []) {i j : Nat}
    {sd sd0 : Ver.StateDict K (Grd.Val K)} (hb : Boxes b tr i sd) (hb0 : Boxes b tr j sd0) {f : Fml K} (hf : f ∈ formulas c)
    {s₀ s : Sensed K (Iv K)} (hs0 : w.sense a sd0 = .ok s₀) (hs : w.sense a sd = .ok s) {res : Bool × Bool}
    (h : evalGuard T.fn T.road T.solver s₀ s f = .ok res) {snap : Snap K (Grd.Val K)} (hin : Ver.Spec.Within snap sd) :
    (res.2 = true → TrueFor T sc sig a snap f) ∧ (Complete T.solver → TrueFor T sc sig a snap f → res.1 = true) := by
  obtain ⟨hn, e, s', he, hea, h1, h1', hsh, hlen⟩ := at_step hsc hag hw hfit hc harg hb
  obtain ⟨hn0, e0, s0', he0, hea0, h2, _, hsh0, hlen0⟩ := at_step hsc hag hw hfit hc harg hb0
  rw [hs] at h1; cases h1
  rw [hs0] at h2; cases h2
  have hdec := hsc.declared a c hc harg
  have hdisc := shown_disc hsh0 hn0 he0 hea0 hdec.ownNames (others_nodup hdec) (boxes_same hb hb0 hin)
  have hbox := shown_box hsh hn he hea hdec.ownNames (others_nodup hdec) hin
  have hplain : ∀ k ∈ keysF f, Plain k := by
    intro k hk
    cases k with
    | tmp m => exact absurd hk (hsc.plain a c hc f hf m)
    | _ => trivial
  have h' := h
  unfold evalGuard at h
  obtain ⟨u, hu, h⟩ := (bind_ok_iff _ _ _).1 h
  obtain ⟨s₁, ha1, h⟩ := (bind_ok_iff _ _ _).1 h
  obtain ⟨r, hr, h⟩ := (bind_ok_iff _ _ _).1 h
  have hl0 := len_ok (T := T) hlen0
  by_cases hr1 : r.1 = true
  · rw [if_pos hr1] at h
    unfold check at h
    obtain ⟨s₂, ha2, _⟩ := (bind_ok_iff _ _ _).1 h
    exact evalGuard_ok (ground T sc) T.road T.solver s₀ s s₂ f u (view (sig a) a snap) res rfl hl0 hdisc hbox hplain (shown_tmp hsh) hu ha2
      (hfit.queries i sd snap a c hb hin hc f hf s u s₂ h1' (by rw [hlen, ← hlen0]; exact hu) ha2) hcor h'
  · rw [if_neg hr1] at h
    cases h
    refine ⟨fun hh => (Bool.false_ne_true hh).elim, fun _ ht => ?_⟩
    refine absurd ht (prepare_none (T := T) (W := ground T sc) rfl hl0 hdisc ?_)
    simp only [prepare, Except.bind, hu, ha1, hr, Except.map, if_neg hr1]

theorem mem_path {c : Controller K} {p : Ver.Path (Sense K) (Ready K) K (Grd.Val K) (Reads K)} (h : p ∈ (logicOf T c).paths) :
    ∃ r ∈ c.rules, p = pathOf T r := by
  obtain ⟨r, hr, rfl⟩ := List.mem_map.1 h
  exact ⟨r, hr, rfl⟩

theorem mem_assert {c : Controller K} {x : Ver.Assertion (Sense K)} (h : x ∈ (logicOf T c).asserts) : ∃ y ∈ c.claims, x = assertionOf T y := by
  obtain ⟨y, hy, rfl⟩ := List.mem_map.1 h
  exact ⟨y, hy, rfl⟩

theorem guard_mem {c : Controller K} {r : Rule K} (h : r ∈ c.rules) : r.guard ∈ formulas c :=
  List.mem_append_left _ (List.mem_map.2 ⟨r, h, rfl⟩)

theorem pre_mem {c : Controller K} {y : Claim K} (h : y ∈ c.claims) : y.pre ∈ formulas c :=
  List.mem_append_right _ (List.mem_flatMap.2 ⟨y, h, by simp⟩)

theorem cond_mem {c : Controller K} {y : Claim K} (h : y ∈ c.claims) : y.cond ∈ formulas c :=
  List.mem_append_right _ (List.mem_flatMap.2 ⟨y, h, by simp⟩)

/-- The answers about guards are right, as well as the values that resets use. -/
theorem faithful_of (hsc : GoodScenario sc sig) (hag : b.agents = (bodyOf T sc).agents) (hw : w.sense = senseIn sc) (hfit : TubesFit T sc sig b tr)
    (hcor : Correct (ground T sc) T.solver) (hcomp : Complete T.solver) : Faithful (meaningOf T sc sig) w b tr := by
  refine ⟨?_, ?_, ?_, ?_⟩
  · rintro a dl p sd0 i snap hctl hp hb0 hprep ⟨sd, hb, hin⟩ ⟨c', r, hc', hr, rfl, ht⟩
    obtain ⟨c, hc, harg, rfl⟩ := (controlled_iff hag).1 hctl
    obtain rfl := unique hsc hc hc'
    obtain ⟨hn0, e0, s₀, he0, hea0, h2, _, hsh0, hlen0⟩ := at_step hsc hag hw hfit hc harg hb0
    have hdec := hsc.declared a c hc harg
    have hdisc := shown_disc hsh0 hn0 he0 hea0 hdec.ownNames (others_nodup hdec) (boxes_same hb hb0 hin)
    rw [h2] at hprep
    exact prepare_none (T := T) (W := ground T sc) rfl (len_ok hlen0) hdisc hprep ht
  · rintro a p i r snap ⟨dl, sd0, sd, g, hctl, hp, hb0, hb, hprep, hchk⟩ ⟨sd', hb', hin⟩ ⟨c', q, hc', hq, rfl, ht⟩
    obtain rfl := Proofs.Ver.boxes_det hb hb'
    obtain ⟨c, hc, harg, rfl⟩ := (controlled_iff hag).1 hctl
    obtain rfl := unique hsc hc hc'
    obtain ⟨_, _, s₀, _, _, h2, _⟩ := at_step hsc hag hw hfit hc harg hb0
    obtain ⟨_, _, s, _, _, h1, _⟩ := at_step hsc hag hw hfit hc harg hb
    rw [h2] at hprep
    rw [h1] at hchk
    exact (guard_right hsc hag hw hfit hcor hc harg hb hb0 (guard_mem hq) h2 h1 (prepare_some hprep hchk) hin).2 hcomp ht
  · intro a dl p sd0 i sd g C snap hctl hp hb0 hb hprep hC hin
    obtain ⟨c, hc, harg, rfl⟩ := (controlled_iff hag).1 hctl
    obtain ⟨r, hr, rfl⟩ := mem_path hp
    obtain ⟨hn, e, s, he, hea, h1, _, hsh, _⟩ := at_step hsc hag hw hfit hc harg hb
    rw [h1] at hC
    simp only [pathOf, Except.map] at hC
    cases hC
    exact shown_range hsh hn he hea (hsc.declared a c hc harg).ownNames hin
  · rintro a dl p sd0 i snap hctl hp hb0 ⟨sd, hb, hin⟩
    obtain ⟨c, hc, harg, rfl⟩ := (controlled_iff hag).1 hctl
    obtain ⟨r, hr, rfl⟩ := mem_path hp
    obtain ⟨hn0, e0, s₀, he0, hea0, h2, _, hsh0, _⟩ := at_step hsc hag hw hfit hc harg hb0
    rw [h2]
    exact shown_reads hsh0 hn0 he0 hea0 (hsc.declared a c hc harg).ownNames (boxes_same hb hb0 hin)

theorem contained_of (hsc : GoodScenario sc sig) (hag : b.agents = (bodyOf T sc).agents) (hw : w.sense = senseIn sc) (hfit : TubesFit T sc sig b tr)
    (hcor : Correct (ground T sc) T.solver) :
    ∀ j a p, ContainedAt w b tr j a p → ∀ s, InTube b tr j s → (meaningOf T sc sig).holds p a s := by
  rintro j a p ⟨m, dl, sd0, sd, g, hctl, hp, hb0, hb, hprep, hchk⟩ snap ⟨sd', hb', hin⟩
  obtain rfl := Proofs.Ver.boxes_det hb hb'
  obtain ⟨c, hc, harg, rfl⟩ := (controlled_iff hag).1 hctl
  obtain ⟨r, hr, rfl⟩ := mem_path hp
  obtain ⟨_, _, s₀, _, _, h2, _⟩ := at_step hsc hag hw hfit hc harg hb0
  obtain ⟨_, _, s, _, _, h1, _⟩ := at_step hsc hag hw hfit hc harg hb
  rw [h2] at hprep
  rw [h1] at hchk
  exact ⟨c, r, hc, hr, rfl, (guard_right hsc hag hw hfit hcor hc harg hb hb0 (guard_mem hr) h2 h1 (prepare_some hprep hchk) hin).1 rfl⟩

theorem asserts_of (hsc : GoodScenario sc sig) (hag : b.agents = (bodyOf T sc).agents) (hw : w.sense = senseIn sc) (hfit : TubesFit T sc sig b tr)
    (hcor : Correct (ground T sc) T.solver) (hcomp : Complete T.solver) : AssertsFaithful (meaningOf T sc sig) w b tr := by
  refine ⟨?_, ?_⟩
  · rintro i a dl x sd hctl hx hb hr snap hin c' y hc' hy rfl
    obtain ⟨c, hc, harg, rfl⟩ := (controlled_iff hag).1 hctl
    obtain rfl := unique hsc hc hc'
    obtain ⟨_, _, s, _, _, h1, _⟩ := at_step hsc hag hw hfit hc harg hb
    rw [h1] at hr
    exact (guard_right hsc hag hw hfit hcor hc harg hb hb (cond_mem hy) h1 h1 hr hin).1 rfl
  · rintro i a dl x sd r hctl hx hb hr ⟨snap, hin, c', y, hc', hy, rfl, ht⟩
    obtain ⟨c, hc, harg, rfl⟩ := (controlled_iff hag).1 hctl
    obtain rfl := unique hsc hc hc'
    obtain ⟨hn, e, s, he, hea, h1, _, hsh, _⟩ := at_step hsc hag hw hfit hc harg hb
    rw [h1] at hr
    have h3 := (guard_right hsc hag hw hfit hcor hc harg hb hb (pre_mem hy) h1 h1 hr hin).2 hcomp ht
    have hm := hsc.pre a c hc y hy
    have hdec := hsc.declared a c hc harg
    have hdisc := shown_disc hsh hn he hea hdec.ownNames (others_nodup hdec) (same_of_within hin)
    refine evalGuard_modes (ground T sc) T.road T.solver s y.pre (view (sig a) a snap) hdisc.disc hm.noRed (hm.noQuery _ _) ?_ ?_ ?_ hcor hcomp r hr h3
    · intro k hk
      rcases hm.keys k hk with ⟨n, rfl⟩ | ⟨x, _, rfl⟩
      · exact .inr ⟨n, rfl⟩
      · exact .inl ⟨_, x, rfl⟩
    · intro k hk
      cases hg : Dict.get? s.cont k with
      | none => rfl
      | some iv =>
        obtain ⟨x, rfl, hx⟩ := (hsh.cont k iv).1 hg
        have hx1 : x ∈ (sig a).own.cont := (keys_zip_sublist _ _).subset (List.mem_map.2 ⟨(x, iv), hx, rfl⟩)
        rcases hm.keys _ hk with ⟨n, hne⟩ | ⟨x', hx', hne⟩
        · cases hne
        · cases hne
          exact absurd rfl ((List.nodup_append.1 hdec.ownNames).2.2 x hx1 x hx')
    · intro n
      cases hg : Dict.get? s.cont (.name n) with
      | none => rfl
      | some iv =>
        obtain ⟨x, hx, _⟩ := (hsh.cont _ iv).1 hg
        cases hx

end Verif.Proofs.Asm
