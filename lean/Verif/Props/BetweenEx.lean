import Verif.Props.Between
import Mathlib.Tactic.IntervalCases

/-!
Cases that meet the hypotheses of C82 and C83, and cases in which the unrestricted claims fail. The agent `a` has the variables `z` and `y`. In mode `A`, `z` is the
time and `y` rises from 0 to 9 and falls back to 0 within the first step. From `z = 9/10` on the controller changes to mode `B` and sets `z` to 10; there `y`
falls by 10 per step. The agent `b`, if there is one, has the time as its only variable.
-/

set_option autoImplicit false
set_option linter.unusedSectionVars false

namespace Verif.Props

open Verif.Ver Verif.Ver.Spec Verif.Proofs.Ver Verif.Rect.Spec Verif.Rst.Spec Verif.Spec

namespace TentEx
open VerEx (rd open_ View ChildView)
open ExecEx (next_agents)

/-- What an agent senses here: all rectangles. -/
abbrev Sn := List (Rect.Box ℚ)

/-- May the value of `z` be in the interval, and is it certainly? -/
def inInt (lo hi : ℚ) (s : Sn) : Except String (Bool × Bool) :=
  match s with
  | ([l, _], [h, _]) :: _ => .ok (decide (l ≤ hi ∧ lo ≤ h), decide (lo ≤ l ∧ h ≤ hi))
  | _ => .error "ValueError"

/-- `if 9/10 <= ego.z and ego.z <= 5: output.var = val` -/
def path (var : String) (val : Rst.Val String Unit) : Path Sn Unit ℚ String Unit :=
  { var := var, prep := fun _ => .ok (some ()), check := fun _ s => inInt (9/10) 5 s, cont := fun _ _ => .ok [], disc := fun _ => (), val := val }

/-- With `b`: `other.t < 21/20 or ego.y < 5`; without: `ego.y < 20`. -/
def apart (s : Sn) : Except String (Bool × Bool) :=
  match s with
  | [([_, yl], [_, yh]), ([tl], [th])] => .ok (decide (tl < 21/20 ∨ yl < 5), decide (th < 21/20 ∨ yh < 5))
  | [([_, yl], [_, yh])] => .ok (decide (yl < 20), decide (yh < 20))
  | _ => .error "ValueError"

def assertion : Assertion Sn := { label := "apart", pre := fun _ => .ok (true, true), cond := apart }

def paths : List (Path Sn Unit ℚ String Unit) := [path "agent_mode" (.const "B"), path "z" (.arith (.atom ['1', '0']))]

def logic : Logic Sn Unit ℚ String Unit :=
  { nargs := 1, asserts := [assertion], paths := paths, cont := ["z", "y"], disc := ["agent_mode"], discType := ["AgentMode"] }

def logicB : Logic Sn Unit ℚ String Unit :=
  { nargs := 0, asserts := [], paths := [], cont := ["t"], disc := ["agent_mode"], discType := ["AgentMode"] }

/-- The scenario, with and without the agent `b`. -/
def body : Bool → Body Sn Unit ℚ String Unit
  | true => { agents := [("a", logic), ("b", logicB)], mode := [("a", ["A"]), ("b", ["A"])],
              init := [("a", [([0, 0], [0, 0])]), ("b", [([0], [0])])], static := [("a", []), ("b", [])] }
  | false => { agents := [("a", logic)], mode := [("a", ["A"])], init := [("a", [([0, 0], [0, 0])])], static := [("a", [])] }

/-- `y` in mode `A`. -/
def tent (t : ℚ) : ℚ := if t ≤ 9/10 then 10 * t else if t ≤ 1 then 90 - 90 * t else 0

/-- The trajectories. -/
def flow (a : String) (m : List String) (ρ : ℚ → List ℚ) : Prop :=
  if a = "b" then ∃ x, ∀ t, 0 ≤ t → ρ t = [x + t] else
  if m = ["A"] then ∀ t, 0 ≤ t → ρ t = [t, tent t] else ∃ z y, ∀ t, 0 ≤ t → ρ t = [z, y - 10 * t]

/-- The rectangle of step `j`. -/
def boxAt (a : String) (m : List String) (c : Rect.Box ℚ) (j : ℚ) : Rect.Box ℚ :=
  if a = "b" then (c.1.map (· + j), c.2.map (· + (j + 1))) else
  match c with
  | ([zl, yl], [zh, yh]) => if m = ["A"] then ([zl + j, yl], [zh + (j + 1), if j = 0 then yh + 9 else yh]) else ([zl, yl - 10 * (j + 1)], [zh, yh - 10 * j])
  | c => c

def wld : World Sn ℚ String :=
  { sense := fun _ sd => sd.map (fun x => x.2.1.box),
    bloat := fun a m c remain => (List.range remain.num.toNat).map (fun (j : Nat) => ⟨j, j + 1, boxAt a m c j⟩),
    segLen := 1, mapH := open_, unsafeContinue := false, round10 := id, sh := fun _ => [], rd := rd }

def point (s : Snap ℚ String) : Sn := s.map (fun x => (x.2.1, x.2.1))

def meaning : Meaning Sn Unit ℚ String Unit :=
  { holds := fun p _ s => p.check () (point s) = .ok (true, true), vars := fun _ _ _ _ => none, disc := fun _ _ _ => (),
    pre := fun x _ s => x.pre (point s) = .ok (true, true), cond := fun x _ s => x.cond (point s) = .ok (true, true) }

def cfg : Engine.Cfg (Body Sn Unit ℚ String Unit) (Trace ℚ) Hits :=
  { kind := .ver, parallel := false, ahead := 1, maxHeight := some 4, horizon := 3, round10 := id, roundN := id, step := verStep wld, noHits := .ok none }

def dim (a : String) : Nat := if a = "b" then 1 else 2

theorem tent_bounds {t : ℚ} (h : 0 ≤ t) : 0 ≤ tent t ∧ tent t ≤ 9 := by
  unfold tent
  split_ifs <;> constructor <;> linarith

theorem tent_late {t : ℚ} (h : 1 ≤ t) : tent t = 0 := by
  unfold tent
  rw [if_neg (by linarith)]
  split_ifs with h1
  · linarith
  · rfl

theorem soundTubes : CSoundTubes (R := ℚ) wld flow 1 3 dim := by
  have hlen : ∀ k : Nat, (((3 - k : Nat) : ℚ) * 1).num.toNat = 3 - k := by
    intro k; rw [mul_one, Rat.num_natCast]; rfl
  have hget : ∀ (a : String) (m : List String) (c : Rect.Box ℚ) (k j : Nat) (s : Seg ℚ), (wld.bloat a m c (((3 - k : Nat) : ℚ) * 1))[j]? = some s →
      s = ⟨j, j + 1, boxAt a m c j⟩ := by
    intro a m c k j s hs
    simp only [wld, hlen] at hs
    rw [List.getElem?_map] at hs
    obtain ⟨i, hi, rfl⟩ := Option.map_eq_some_iff.1 hs
    obtain ⟨hj, hij⟩ := List.getElem?_eq_some_iff.1 hi
    rw [List.getElem_range] at hij
    subst hij
    rfl
  refine ⟨?_, ?_, ?_, ?_⟩
  · intro a m c k _ _
    simp only [wld, hlen, List.length_map, List.length_range]
  · intro a m c k j s _ _ hs
    rw [hget a m c k j s hs]
    simp
  · intro a m c k h1 h2 s hs
    obtain ⟨j, hj⟩ := List.mem_iff_getElem?.1 hs
    rw [hget a m c k j s hj]
    unfold boxAt
    unfold dim at h1 h2 ⊢
    by_cases e : a = "b"
    · simp [e, ← h1] at h1 h2 ⊢
      exact ⟨h1, h2⟩
    · rw [if_neg e] at h1 h2
      obtain ⟨l, u⟩ := c
      match l, u, h1, h2 with
      | [zl, yl], [zh, yh], _, _ =>
        simp only [if_neg e]
        split_ifs <;> exact ⟨rfl, rfl⟩
  · intro a m c k j s ρ hρ hin hs t ht1 ht2
    rw [hget a m c k j s hs]
    have hj : (0 : ℚ) ≤ (j : ℚ) := Nat.cast_nonneg j
    simp only [Rat.cast_one, mul_one] at ht1 ht2
    push_cast at ht2
    have ht : 0 ≤ t := le_trans hj ht1
    unfold boxAt
    unfold flow at hρ
    by_cases e : a = "b"
    · rw [if_pos e] at hρ ⊢
      obtain ⟨x, hx⟩ := hρ
      rw [hx 0 le_rfl] at hin
      rw [hx t ht]
      obtain ⟨l, u⟩ := c
      obtain ⟨i1, i2⟩ := hin
      match l, u, i1, i2 with
      | [l], [u], .cons i1 .nil, .cons i2 .nil => exact ⟨.cons (by linarith) .nil, .cons (by linarith) .nil⟩
    · rw [if_neg e] at hρ ⊢
      by_cases hm : m = ["A"]
      · rw [if_pos hm] at hρ
        rw [hρ 0 le_rfl] at hin
        rw [hρ t ht]
        have t0 : tent 0 = 0 := by decide +kernel
        rw [t0] at hin
        obtain ⟨l, u⟩ := c
        obtain ⟨i1, i2⟩ := hin
        match l, u, i1, i2 with
        | [zl, yl], [zh, yh], .cons i1 (.cons i3 .nil), .cons i2 (.cons i4 .nil) =>
          obtain ⟨b1, b2⟩ := tent_bounds ht
          simp only [if_pos hm]
          refine ⟨.cons (by linarith) (.cons (by linarith) .nil), .cons (by linarith) (.cons ?_ .nil)⟩
          split_ifs with h0
          · linarith
          · have : (1 : ℚ) ≤ (j : ℚ) := by
              have : j ≠ 0 := fun h => h0 (by rw [h]; rfl)
              exact_mod_cast Nat.one_le_iff_ne_zero.2 this
            rw [tent_late (by linarith)]
            exact i4
      · rw [if_neg hm] at hρ
        obtain ⟨z, y, hzy⟩ := hρ
        rw [hzy 0 le_rfl] at hin
        rw [hzy t ht]
        obtain ⟨l, u⟩ := c
        obtain ⟨i1, i2⟩ := hin
        match l, u, i1, i2 with
        | [zl, yl], [zh, yh], .cons i1 (.cons i3 .nil), .cons i2 (.cons i4 .nil) =>
          simp only [if_neg hm]
          exact ⟨.cons i1 (.cons (by linarith) .nil), .cons i2 (.cons (by linarith) .nil)⟩

variable {two : Bool} {b' : Body Sn Unit ℚ String Unit}

theorem ctl (hb : b'.agents = (body two).agents) {a : String} {dl : Logic Sn Unit ℚ String Unit} (h : Controlled b' a dl) : a = "a" ∧ dl = logic := by
  obtain ⟨h1, h2⟩ := h
  rw [hb] at h1
  cases two
  · simpa [body] using h1
  · simp only [body, List.mem_cons, Prod.mk.injEq, List.not_mem_nil, or_false] at h1
    rcases h1 with h1 | ⟨_, rfl⟩
    · exact h1
    · exact absurd rfl h2

theorem check_eq {p : Path Sn Unit ℚ String Unit} (hp : p ∈ paths) : p.check () = inInt (9/10) 5 := by
  simp only [paths, List.mem_cons, List.not_mem_nil, or_false] at hp
  rcases hp with rfl | rfl <;> rfl

theorem inInt_spec (s : Snap ℚ String) (sd : StateDict ℚ String) (h : Within s sd) (r : Bool × Bool)
    (hr : inInt (9/10) 5 (sd.map (fun x => x.2.1.box)) = .ok r) :
    (inInt (9/10) 5 (point s) = .ok (true, true) → r.1 = true) ∧ (r.2 = true → inInt (9/10) 5 (point s) = .ok (true, true)) := by
  unfold point
  cases h with
  | nil => cases hr
  | @cons x y s sd h1 _ =>
    obtain ⟨_, h2, _⟩ := h1
    obtain ⟨n, st, rest⟩ := x
    obtain ⟨n', ⟨t0, t1, l, u⟩, rest'⟩ := y
    simp only [List.map_cons] at hr h2 ⊢
    match l, u, hr with
    | [l, l'], [u, u'], hr =>
      obtain ⟨i1, i2⟩ := h2
      match st, i1, i2 with
      | [z, y], .cons i1 (.cons _ .nil), .cons i2 (.cons _ .nil) =>
        simp only [inInt, Except.ok.injEq] at hr ⊢
        subst hr
        constructor
        · intro hh
          simp only [Prod.mk.injEq, decide_eq_true_eq] at hh ⊢
          exact ⟨le_trans i1 hh.1.1, le_trans hh.1.2 i2⟩
        · intro hh
          simp only [Prod.mk.injEq, decide_eq_true_eq] at hh ⊢
          exact ⟨⟨le_trans i2 hh.2, le_trans hh.1 i1⟩, le_trans hh.1 i1, le_trans i2 hh.2⟩

theorem apart_spec (s : Snap ℚ String) (sd : StateDict ℚ String) (h : Within s sd) (hr : apart (sd.map (fun x => x.2.1.box)) = .ok (true, true)) :
    apart (point s) = .ok (true, true) := by
  unfold point
  cases h with
  | nil => cases hr
  | @cons x y s sd h1 h2 =>
    obtain ⟨_, h1, _⟩ := h1
    obtain ⟨n, st, rest⟩ := x
    obtain ⟨n', ⟨t0, t1, l, u⟩, rest'⟩ := y
    simp only [List.map_cons] at hr h1 ⊢
    cases h2 with
    | nil =>
      match l, u, hr with
      | [l, l'], [u, u'], hr =>
        obtain ⟨i1, i2⟩ := h1
        match st, i1, i2 with
        | [z, y], .cons i1 (.cons i3 .nil), .cons i2 (.cons i4 .nil) =>
          simp only [apart, List.map_nil, Except.ok.injEq, Prod.mk.injEq, decide_eq_true_eq] at hr ⊢
          exact ⟨lt_of_le_of_lt i4 hr.2, lt_of_le_of_lt i4 hr.2⟩
    | @cons x y s sd h2 h3 =>
      obtain ⟨_, h2, _⟩ := h2
      obtain ⟨nn, stt, restt⟩ := x
      obtain ⟨nn', ⟨tt0, tt1, ll, uu⟩, restt'⟩ := y
      simp only [List.map_cons] at hr h2 ⊢
      cases h3 with
      | cons _ _ =>
        exfalso
        unfold apart at hr
        split at hr
        · rename_i e; simp at e
        · rename_i e; simp at e
        · cases hr
      | nil =>
        match l, u, ll, uu, hr with
        | [l, l'], [u, u'], [ll], [uu], hr =>
          obtain ⟨i1, i2⟩ := h1
          obtain ⟨j1, j2⟩ := h2
          match st, i1, i2, stt, j1, j2 with
          | [z, y], .cons i1 (.cons i3 .nil), .cons i2 (.cons i4 .nil), [q], .cons j1 .nil, .cons j2 .nil =>
            simp only [apart, List.map_nil, Except.ok.injEq, Prod.mk.injEq, decide_eq_true_eq] at hr ⊢
            have : q < 21/20 ∨ y < 5 := hr.2.imp (lt_of_le_of_lt j2) (lt_of_le_of_lt i4)
            exact ⟨this, this⟩

theorem faithful (hb : b'.agents = (body two).agents) (tr : Trace ℚ) : Faithful meaning wld b' tr := by
  refine ⟨?_, ?_, ?_, fun _ _ _ _ _ _ _ _ _ _ => rfl⟩
  · intro a dl p sd0 i snap hc hm _ hprep
    obtain ⟨rfl, rfl⟩ := ctl hb hc
    simp only [logic, paths, List.mem_cons, List.not_mem_nil, or_false] at hm
    rcases hm with rfl | rfl <;> cases hprep
  · rintro a p i r snap ⟨dl, sd0, sd, g, hc, hm, _, hsd, _, hr⟩ ⟨sd', hsd', hin⟩ hh
    obtain ⟨rfl, rfl⟩ := ctl hb hc
    have e := check_eq hm
    rw [boxes_det hsd' hsd] at hin
    simp only [meaning, e] at hh
    exact (inInt_spec snap sd hin r (e ▸ hr)).1 hh
  · intro a dl p sd0 i sd g C snap hc hm _ _ _ hC _
    obtain ⟨rfl, rfl⟩ := ctl hb hc
    simp only [logic, paths, List.mem_cons, List.not_mem_nil, or_false] at hm
    rcases hm with rfl | rfl <;> (cases hC; intro t; rfl)

theorem contained (hb : b'.agents = (body two).agents) (tr : Trace ℚ) :
    ∀ j a p, ContainedAt wld b' tr j a p → ∀ s, InTube b' tr j s → meaning.holds p a s := by
  rintro j a p ⟨r, dl, sd0, sd, g, hc, hm, _, hsd, _, hr⟩ s ⟨sd', hsd', hin⟩
  obtain ⟨rfl, rfl⟩ := ctl hb hc
  have e := check_eq hm
  rw [boxes_det hsd' hsd] at hin
  simp only [meaning, e]
  exact (inInt_spec s sd hin _ (e ▸ hr)).2 rfl

theorem resettable (hb : b'.agents = (body two).agents) (tr : Trace ℚ) : Resettable wld b' tr := by
  intro a dl p sd0 i sd g C hc hm _ _ _ hC
  obtain ⟨rfl, rfl⟩ := ctl hb hc
  simp only [logic, paths, List.mem_cons, List.not_mem_nil, or_false] at hm
  rcases hm with rfl | rfl
  · exact ⟨fun e he => (by cases he), fun _ => ⟨fun e he => (by cases he), fun v he => (by cases he)⟩⟩
  · cases hC
    refine ⟨fun e he _ => ?_, fun h => ?_⟩
    · cases he
      refine ⟨⟨by simp, by simp, by simp, by simp⟩, trivial, fun vars hv => ⟨⟨10, ?_⟩, by simp⟩⟩
      have : vars ['1', '0'] = none := hv ['1', '0']
      simp only [value, this, Option.none_or]
      have hrd : rd ['1', '0'] = some 10 := by decide +kernel
      exact hrd
    · simp only [path, logic, List.mem_singleton] at h
      exact absurd h (by decide)

theorem permits (hb : b'.agents = (body two).agents) {a : String} {dl : Logic Sn Unit ℚ String Unit} (h : Controlled b' a dl) (m m' : List String) :
    MapPermits wld dl m m' := by
  obtain ⟨rfl, rfl⟩ := ctl hb h
  exact ⟨m, none, m', none, .all noTrack, .none noTrack, .all noTrack, .none noTrack, .inr rfl⟩

/-- All guards are the same interval. -/
theorem alone (hb : b'.agents = (body two).agents) (tr : Trace ℚ) :
    ∀ i snap a dl dest post, InTube b' tr i snap → CanSwitch meaning wld b' snap a dl dest post → NoExtraHit meaning wld b' tr i a dl snap := by
  rintro i snap a dl dest post _ ⟨state, mode, static, hc, _, _, _, ⟨choice, c1, c2, ⟨v, c3⟩, _⟩, _⟩ p hpm _
  obtain ⟨rfl, rfl⟩ := ctl hb hc
  obtain ⟨q, hq⟩ := Option.isSome_iff_exists.1 c3
  obtain ⟨q1, _, q2⟩ := c1 v q hq
  refine ⟨p, hpm, rfl, ?_⟩
  simp only [meaning, check_eq hpm]
  simp only [meaning, check_eq q1] at q2
  exact q2

theorem asserts (hb : b'.agents = (body two).agents) (tr : Trace ℚ) : AssertsFaithful meaning wld b' tr := by
  refine ⟨?_, ?_⟩
  · intro i a dl x sd hc hx _ hr s hs
    obtain ⟨rfl, rfl⟩ := ctl hb hc
    obtain rfl : x = assertion := by simpa [logic] using hx
    exact apart_spec s sd hs hr
  · intro i a dl x sd r hc hx _ hr _
    obtain ⟨rfl, rfl⟩ := ctl hb hc
    obtain rfl : x = assertion := by simpa [logic] using hx
    exact (Except.ok.inj hr).symm

/-- What a guard is asked: whether the rectangle of `a` meets the interval. -/
theorem asked (hb : b'.agents = (body two).agents) {tr : Trace ℚ} {i : Nat} {a : String} {p : Path Sn Unit ℚ String Unit} {r : Bool × Bool}
    (h : Asked wld b' tr i a p r) : a = "a" ∧ p ∈ paths ∧ ∃ segs seg, Dict.get? tr "a" = some segs ∧ segs[i]? = some seg ∧ inInt (9/10) 5 [seg.box] = .ok r := by
  obtain ⟨dl, sd0, sd, g, hc, hm, _, hsd, _, hr⟩ := h
  obtain ⟨rfl, rfl⟩ := ctl hb hc
  refine ⟨rfl, hm, ?_⟩
  have hr' : inInt (9/10) 5 (sd.map (fun x => x.2.1.box)) = .ok r := check_eq hm ▸ hr
  obtain ⟨rest, he⟩ : ∃ rest, b'.agents = ("a", logic) :: rest := by
    rw [hb]; cases two <;> exact ⟨_, rfl⟩
  unfold Boxes at hsd
  rw [he] at hsd
  cases hsd with
  | @cons _ x _ l2 h1 h2 =>
    obtain ⟨e1, ⟨segs, e2, e3⟩, _⟩ := h1
    refine ⟨segs, x.2.1, e2, e3, ?_⟩
    rw [← hr']
    obtain ⟨n, ⟨t0, t1, l, u⟩, y⟩ := x
    simp only [List.map_cons]
    unfold inInt
    match l, u with
    | [], _ => rfl
    | [_], _ => rfl
    | [_, _], [] => rfl
    | [_, _], [_] => rfl
    | [_, _], [_, _] => rfl
    | [_, _], _ :: _ :: _ :: _ => rfl
    | _ :: _ :: _ :: _, _ => rfl

def root (two : Bool) : Engine.Work (Body Sn Unit ℚ String Unit) (Trace ℚ) := ⟨0, 0, body two, []⟩

def sg (i : Nat) (l h : List ℚ) : Seg ℚ := ⟨i, i + 1, (l, h)⟩

def tubeB : Tube ℚ := [sg 0 [0] [1], sg 1 [1] [2], sg 2 [2] [3]]

def child : Bool → Engine.Work (Body Sn Unit ℚ String Unit) (Trace ℚ)
  | true => ⟨1, 0, { body true with mode := [("a", ["B"]), ("b", ["A"])], init := [("a", [([10, 0], [10, 9]), ([10, 0], [10, 0])]), ("b", [([0], [1])])] },
      [("b", tubeB)]⟩
  | false => ⟨1, 0, { body false with mode := [("a", ["B"])], init := [("a", [([10, 0], [10, 9]), ([10, 0], [10, 0])])] }, []⟩

def rootA : Tube ℚ := [sg 0 [0, 0] [1, 9], sg 1 [1, 0] [2, 0], sg 2 [2, 0] [3, 0]]
def childA : Tube ℚ := [sg 0 [10, -10] [10, 9], sg 1 [10, -20] [10, 0], sg 2 [10, -30] [10, -10]]

def rootFull : Bool → Trace ℚ
  | true => [("a", rootA), ("b", tubeB)]
  | false => [("a", rootA)]
def childFull : Bool → Trace ℚ
  | true => [("b", tubeB), ("a", childA)]
  | false => [("a", childA)]

def view (r : Engine.Result (Body Sn Unit ℚ String Unit) (Trace ℚ) (Option (Dict String (List String)))) : View :=
  ⟨r.hits, r.next.map (fun c => ⟨c.start, c.body.mode, c.body.init, c.trace⟩), r.trace⟩

/-- The root is cut after the second step. -/
theorem root_run (two : Bool) : (verifyOne wld (root two) 3).map view =
    .ok ⟨none, [⟨0, (child two).body.mode, (child two).body.init, (child two).trace⟩], (rootFull two).map (fun x => (x.1, x.2.take 2))⟩ := by
  cases two <;> decide +kernel

theorem child_run (two : Bool) : (verifyOne wld (child two) 3).map view = .ok ⟨none, [], childFull two⟩ := by
  cases two <;> decide +kernel

theorem root_fill (two : Bool) : fillTubes wld (root two).body 0 3 [] = .ok (rootFull two) := by cases two <;> decide +kernel
theorem child_fill (two : Bool) : fillTubes wld (child two).body 0 3 (child two).trace = .ok (childFull two) := by cases two <;> decide +kernel

theorem of_view {n : Engine.Work (Body Sn Unit ℚ String Unit) (Trace ℚ)} {r : ℚ} {v : View} (h : (verifyOne wld n r).map view = .ok v) :
    ∃ res, verifyOne wld n r = .ok res ∧ res.hits = v.hits ∧ res.trace = v.tubes ∧
      ∀ c ∈ res.next, (⟨c.start, c.body.mode, c.body.init, c.trace⟩ : ChildView) ∈ v.next := by
  obtain ⟨res, h1, rfl⟩ := (map_ok_iff _ _ _).1 h
  exact ⟨res, h1, rfl, rfl, fun c hc => List.mem_map.2 ⟨c, hc, rfl⟩⟩

theorem child_agents (two : Bool) : (child two).body.agents = (body two).agents := by cases two <;> rfl

/-- The nodes of this scenario. -/
theorem visited {n : Engine.Work (Body Sn Unit ℚ String Unit) (Trace ℚ)} (h : Visited wld cfg (body two) n) : n = root two ∨ n = child two := by
  induction h with
  | root => exact .inl rfl
  | @child n c _ hc ih =>
    right
    have e : ∀ n : Engine.Work (Body Sn Unit ℚ String Unit) (Trace ℚ), n.start = 0 → cfg.round10 (cfg.horizon - n.start) = 3 := by
      intro n h; rw [h]; decide +kernel
    rcases ih with rfl | rfl
    · rw [e (root two) rfl] at hc
      obtain ⟨res, h1, _, _, h4⟩ := of_view (root_run two)
      simp only [verStep, h1] at hc
      have h5 := h4 c hc
      obtain ⟨h6, h7⟩ := next_agents h1 c hc
      simp only [List.mem_singleton, ChildView.mk.injEq] at h5
      obtain ⟨e1, e2, e3, e4⟩ := h5
      obtain ⟨start, bd, tr⟩ := c
      obtain ⟨ags, md, ini, st⟩ := bd
      simp only at e1 e2 e3 e4 h6 h7
      subst e1 e2 e3 e4 h6 h7
      cases two <;> rfl
    · rw [e (child two) (by cases two <;> rfl)] at hc
      obtain ⟨res, h1, _, _, h4⟩ := of_view (child_run two)
      simp only [verStep, h1] at hc
      exact absurd (h4 c hc) (by simp)

theorem wf (two : Bool) : Body.WF (body two) := by
  have h1 : Logic.WF logic :=
    ⟨by simp [logic], by simp [logic], by simp only [logic, List.mem_singleton, forall_eq]; decide +kernel, by decide +kernel⟩
  have h2 : Logic.WF logicB :=
    ⟨by simp [logicB], by simp [logicB], by simp only [logicB, List.mem_singleton, forall_eq]; decide +kernel, by decide +kernel⟩
  cases two
  · refine ⟨by simp [body], fun x hx => ?_⟩
    obtain rfl : x = ("a", logic) := by simpa [body] using hx
    exact h1
  · refine ⟨by simp [body], fun x hx => ?_⟩
    simp only [body, List.mem_cons, List.not_mem_nil, or_false] at hx
    rcases hx with rfl | rfl
    · exact h1
    · exact h2

/-- The steps of the transitions that are found. -/
def idxs (f : Found Sn Unit ℚ String Unit) : List (List Nat) :=
  match f with
  | .asserts _ _ => []
  | .trans ts => ts.map (fun t => t.idxs)

theorem modes (hb : b'.agents = (body two).agents) (v : String) (hm : Dict.get? b'.mode "a" = some [v]) :
    ∀ a dl src, Controlled b' a dl → Dict.get? b'.mode a = some src → src.length = dl.disc.length := by
  intro a dl src hc hs
  obtain ⟨rfl, rfl⟩ := ctl hb hc
  rw [hm] at hs
  cases hs
  rfl

theorem controlled_a (two : Bool) : Controlled (body two) "a" logic := ⟨by cases two <;> simp [body], by decide⟩

theorem root_get (two : Bool) : Dict.get? (rootFull two) "a" = some rootA := by cases two <;> decide +kernel
theorem child_get (two : Bool) : Dict.get? (childFull two) "a" = some childA := by cases two <;> decide +kernel

/-- In the root, the guard may be satisfied at every step. -/
theorem root_hit (two : Bool) {k : Nat} (hk : k < 3) : ∃ r, HitAt wld (body two) (rootFull two) k "a" r := by
  refine ⟨path "agent_mode" (.const "B"), ?_⟩
  have hbx : ∀ i, i < 3 → ∃ sd, Boxes (body two) (rootFull two) i sd ∧ (sd.map (fun x => x.2.1.box)).head? = (rootA[i]?).map (fun s => s.box) := by
    intro i hi
    have hA : i < rootA.length := hi
    have hB : i < tubeB.length := hi
    cases two
    · exact ⟨[("a", rootA[i], ["A"], [])], .cons ⟨rfl, ⟨rootA, rfl, List.getElem?_eq_getElem hA⟩, rfl, rfl⟩ .nil, by rw [List.getElem?_eq_getElem hA]; rfl⟩
    · exact ⟨[("a", rootA[i], ["A"], []), ("b", tubeB[i], ["A"], [])], .cons ⟨rfl, ⟨rootA, rfl, List.getElem?_eq_getElem hA⟩, rfl, rfl⟩
        (.cons ⟨rfl, ⟨tubeB, rfl, List.getElem?_eq_getElem hB⟩, rfl, rfl⟩ .nil), by rw [List.getElem?_eq_getElem hA]; rfl⟩
  obtain ⟨sd0, h0, _⟩ := hbx 0 (by omega)
  obtain ⟨sd, h1, h2⟩ := hbx k hk
  obtain ⟨x, rest, hx⟩ : ∃ x rest, sd.map (fun x => x.2.1.box) = x :: rest := by
    cases hsd : sd.map (fun x => x.2.1.box) with
    | nil => rw [hsd] at h2; interval_cases k <;> cases h2
    | cons x rest => exact ⟨x, rest, rfl⟩
  rw [hx] at h2
  have hr : ∃ c, inInt (9/10) 5 (x :: rest) = .ok (true, c) := by
    interval_cases k
    · cases h2; exact ⟨_, show Except.ok (_, _) = _ by rw [show decide ((0 : ℚ) ≤ 5 ∧ (9 : ℚ)/10 ≤ 1) = true by decide +kernel]⟩
    · cases h2; exact ⟨_, show Except.ok (_, _) = _ by rw [show decide ((1 : ℚ) ≤ 5 ∧ (9 : ℚ)/10 ≤ 2) = true by decide +kernel]⟩
    · cases h2; exact ⟨_, show Except.ok (_, _) = _ by rw [show decide ((2 : ℚ) ≤ 5 ∧ (9 : ℚ)/10 ≤ 3) = true by decide +kernel]⟩
  obtain ⟨c, hc⟩ := hr
  refine ⟨c, logic, sd0, sd, (), controlled_a two, by simp [logic, paths], h0, h1, rfl, ?_⟩
  show inInt (9/10) 5 (sd.map (fun x => x.2.1.box)) = _
  rw [hx, hc]

theorem root_ok (two : Bool) : NodeOK meaning wld (root two) (rootFull two) := by
  refine ⟨⟨resettable (two := two) rfl _, ?_, ?_, ?_, ?_, alone (two := two) rfl _⟩, modes (two := two) rfl "A" (by cases two <;> decide +kernel),
    faithful (two := two) rfl _, contained (two := two) rfl _⟩
  · intro j k a p hjk _ _ hk
    have hk3 : k < 3 := hk ("a", rootA) (by cases two <;> simp [rootFull])
    exact ⟨"a", root_hit two hk3⟩
  · intro j a p _ o ho _ rs hrs
    have : rs.length = 1 := by
      cases two
      · obtain rfl : o = ("a", logic) := by simpa [root, body] using ho
        cases hrs; rfl
      · simp only [root, body, List.mem_cons, List.not_mem_nil, or_false] at ho hrs
        rcases ho with rfl | rfl
        · cases hrs; rfl
        · cases hrs; rfl
    omega
  · intro ts hts t ht k i hi
    have h1 : (getTransitions wld (root two).body (rootFull two)).map idxs = .ok [[0, 1]] := by cases two <;> decide +kernel
    rw [hts] at h1
    have h2 : ts.map (fun t => t.idxs) = [[0, 1]] := by
      simpa only [Except.map, Except.ok.injEq, idxs] using h1
    have h3 : t.idxs ∈ ts.map (fun t => t.idxs) := List.mem_map_of_mem (f := fun (t : Trans Sn Unit ℚ String Unit) => t.idxs) ht
    rw [h2, List.mem_singleton] at h3
    rw [h3] at hi ⊢
    match k with
    | 0 => cases hi; exact ⟨0, rfl, rfl⟩
    | 1 => cases hi; exact ⟨0, rfl, rfl⟩
    | k + 2 => simp at hi
  · intro i a dl sel src dest hc _ _ _
    exact permits (two := two) rfl hc _ _

theorem child_ok (two : Bool) : NodeOK meaning wld (child two) (childFull two) := by
  have hb := child_agents two
  have hno : ∀ i a p r, Asked wld (child two).body (childFull two) i a p r → r = (false, false) := by
    intro i a p r h
    obtain ⟨rfl, hp, segs, g, h1, h2, h3⟩ := asked hb h
    rw [child_get two] at h1
    cases h1
    have hi : i < 3 := (List.getElem?_eq_some_iff.1 h2).1
    have hs : ∃ yl yh, g.box = ([10, yl], [10, yh]) := by
      interval_cases i <;> (cases h2; exact ⟨_, _, rfl⟩)
    obtain ⟨yl, yh, hs⟩ := hs
    rw [hs] at h3
    simp only [inInt, Except.ok.injEq] at h3
    rw [← h3]
    exact Prod.ext (by decide +kernel) (by decide +kernel)
  refine ⟨⟨resettable hb _, ?_, ?_, ?_, ?_, alone hb _⟩, modes hb "B" (by cases two <;> decide +kernel), faithful hb _, contained hb _⟩
  · rintro j k a p _ ⟨c, h⟩
    cases hno _ _ _ _ h
  · rintro j a p ⟨c, h⟩
    cases hno _ _ _ _ h
  · intro ts hts t ht
    have h1 : (getTransitions wld (child two).body (childFull two)).map idxs = .ok [] := by cases two <;> decide +kernel
    rw [hts] at h1
    have h2 : ts.map (fun t => t.idxs) = [] := by
      simpa only [Except.map, Except.ok.injEq, idxs] using h1
    have h3 : t.idxs ∈ ts.map (fun t => t.idxs) := List.mem_map_of_mem (f := fun (t : Trans Sn Unit ℚ String Unit) => t.idxs) ht
    rw [h2] at h3
    simp at h3
  · intro i a dl sel src dest hc _ _ _
    exact permits hb hc _ _

theorem remain {n : Engine.Work (Body Sn Unit ℚ String Unit) (Trace ℚ)} (h : n.start = 0) : cfg.round10 (cfg.horizon - n.start) = 3 := by
  rw [h]; decide +kernel

/-- What the nodes of a tree for this scenario are labelled with. -/
theorem label {t u : RTree (Label (Body Sn Unit ℚ String Unit) (Trace ℚ) Hits)} (ht : Returned cfg (body two) [] t) {k : Nat} (hu : RTree.Below t u k) :
    u.label.hits = .ok none ∧ ∀ segs, Dict.get? u.label.trace "a" = some segs → ∀ s ∈ segs, s ∈ rootA.take 2 ∨ s ∈ childA := by
  have hx := Engine.returned_explores ht
  obtain ⟨st', b', tr', h1, h2⟩ := Engine.explores_below_inv (I := fun n => Visited wld cfg (body two) n)
    (fun n _ hn c hc => .child hn hc) hu hx .root
  obtain ⟨-, -, -, h3 | ⟨-, h4, h3, -⟩⟩ := Engine.explores_node h1
  · refine ⟨h3.2.2.2, ?_⟩
    rw [h3.2.2.1]
    intro segs hs
    exfalso
    rcases visited h2 with e | e
    · injection e with _ _ _ e; rw [e] at hs; cases hs
    · have e4 : tr' = (child two).trace := by rw [← e]
      rw [e4] at hs
      cases two
      · cases hs
      · exact absurd hs (by rw [show Dict.get? (child true).trace "a" = none by decide +kernel]; simp)
  · rw [h3, h4]
    rcases visited h2 with e | e
    · rw [e]
      obtain ⟨res, r1, r2, r3, -⟩ := of_view (root_run two)
      have ee : (problem cfg (cfg.parallel && decide (cfg.kind = .sim))).expand (root two) = verStep wld (root two) 3 := by
        show ({ verStep wld (root two) (cfg.round10 (cfg.horizon - (root two).start)) with hits := _ } : Engine.Result _ _ _) = _
        rw [remain (n := root two) rfl]; rfl
      rw [ee, verStep, r1]
      refine ⟨by simp only [r2], ?_⟩
      simp only [r3]
      intro segs hs s hm
      left
      cases two <;> (cases hs; exact hm)
    · rw [e]
      obtain ⟨res, r1, r2, r3, -⟩ := of_view (child_run two)
      have ee : (problem cfg (cfg.parallel && decide (cfg.kind = .sim))).expand (child two) = verStep wld (child two) 3 := by
        show ({ verStep wld (child two) (cfg.round10 (cfg.horizon - (child two).start)) with hits := _ } : Engine.Result _ _ _) = _
        rw [remain (n := child two) (by cases two <;> rfl)]; rfl
      rw [ee, verStep, r1]
      refine ⟨by simp only [r2], ?_⟩
      simp only [r3]
      intro segs hs s hm
      right
      rw [child_get two] at hs
      cases hs
      exact hm

/-- `verify` returns a tree. -/
theorem returned (b : Body Sn Unit ℚ String Unit) : ∃ t, Returned cfg b [] t := by
  obtain ⟨N, hN⟩ := C08_terminates cfg (by decide) 4 rfl b []
  obtain ⟨s, hs⟩ := hN (List.replicate N 0) (by simp)
  obtain ⟨g, hg, _⟩ := C07_loop_computes_exploration cfg (by decide) b [] _ s hs
  exact ⟨g.map Label.ofRec, by decide, _, s, g, hs, hg, rfl⟩

/-- The scenario is verified. -/
theorem verified (two : Bool) {t : RTree (Label (Body Sn Unit ℚ String Unit) (Trace ℚ) Hits)} (ht : Returned cfg (body two) [] t) :
    Verified (R := ℚ) meaning wld (body two) flow 1 3 dim cfg t := by
  refine ⟨wf two, ?_, soundTubes, rfl, by norm_num, fun k => ⟨rfl, rfl, rfl⟩, rfl, rfl, by decide +kernel, ht, fun u k hu => (label ht hu).1, ?_⟩
  · intro a ha rs hrs r hr
    cases two
    · obtain rfl : a = ("a", logic) := by simpa [body] using ha
      cases hrs; rw [List.mem_singleton] at hr; subst hr; exact ⟨rfl, rfl⟩
    · simp only [body, List.mem_cons, List.not_mem_nil, or_false] at ha hrs
      rcases ha with rfl | rfl
      · cases hrs; rw [List.mem_singleton] at hr; subst hr; exact ⟨rfl, rfl⟩
      · cases hrs; rw [List.mem_singleton] at hr; subst hr; exact ⟨rfl, rfl⟩
  · intro n full hn hf
    rcases visited hn with rfl | rfl
    · rw [remain (n := root two) rfl] at hf
      cases (root_fill two).symm.trans hf
      exact root_ok two
    · have h0 : (child two).start = 0 := by cases two <;> rfl
      rw [remain h0, h0] at hf
      cases (child_fill two).symm.trans hf
      exact child_ok two

theorem verified_asserts (two : Bool) : ∀ n full, Visited wld cfg (body two) n →
    fillTubes wld n.body n.start (cfg.round10 (cfg.horizon - n.start)) n.trace = .ok full → AssertsFaithful meaning wld n.body full := by
  intro n full hn _
  rcases visited hn with rfl | rfl
  · exact asserts (two := two) rfl _
  · exact asserts (child_agents two) _

theorem below_of_path {α : Type} {t : RTree α} {us : List α} (h : PathIn t us) : ∀ l ∈ us, ∃ u k, RTree.Below t u k ∧ u.label = l := by
  induction h with
  | @root t => intro l hl; rw [List.mem_singleton] at hl; exact ⟨t, 0, .refl t, hl.symm⟩
  | @down t u us hu _ ih =>
    intro l hl
    rcases List.mem_cons.1 hl with rfl | hl
    · exact ⟨t, 0, .refl t, rfl⟩
    · obtain ⟨v, k, hv, e⟩ := ih l hl
      obtain ⟨d, ts⟩ := t
      exact ⟨v, k + 1, .step hu hv, e⟩

/-- The execution that switches at time `x`. -/
def ph1 : CPhase ℚ ℚ String := ⟨fun _ => ["A"], fun a t => if a = "b" then [t] else [t, tent t]⟩
def ph2 (x : ℚ) : CPhase ℚ ℚ String := ⟨fun a => if a = "a" then ["B"] else ["A"], fun a t => if a = "b" then [x + t] else if a = "a" then [10, tent x - 10 * t] else [x + t, tent (x + t)]⟩

theorem snap_holds (b : Body Sn Unit ℚ String Unit) (hb : ∃ l, b.agents = ("a", logic) :: l) (φ : CPhase ℚ ℚ String) (t z y : ℚ) (hφ : φ.path "a" t = [z, y])
    {p : Path Sn Unit ℚ String Unit} (hp : p ∈ paths) : meaning.holds p "a" (φ.snap b t) ↔ 9/10 ≤ z ∧ z ≤ 5 := by
  obtain ⟨l, hb⟩ := hb
  simp only [meaning, check_eq hp, CPhase.snap, hb, List.map_cons, point, hφ, inInt, Except.ok.injEq, Prod.mk.injEq, decide_eq_true_eq]
  tauto

theorem first_a (two : Bool) : ∃ l, (body two).agents = ("a", logic) :: l := by cases two <;> exact ⟨_, rfl⟩

theorem canSwitch (two : Bool) (x : ℚ) (h1 : 9/10 ≤ x) (h2 : x ≤ 1) :
    CanSwitch meaning wld (body two) (ph1.snap (body two) x) "a" logic ((ph2 x).mode "a") ((ph2 x).path "a" 0) := by
  refine ⟨[x, tent x], ["A"], [], controlled_a two, ?_, by cases two <;> rfl, rfl, ⟨fun v => if v = "agent_mode" then some (path "agent_mode" (.const "B"))
    else if v = "z" then some (path "z" (.arith (.atom ['1', '0']))) else none, ?_, ?_, ⟨"z", by decide⟩, rfl, rfl, ?_, ?_⟩,
    permits (two := two) rfl (controlled_a two) _ _⟩
  · refine List.mem_map.2 ⟨("a", logic), (controlled_a two).1, ?_⟩
    cases two <;> rfl
  · have hh : ∀ p ∈ paths, meaning.holds p "a" (ph1.snap (body two) x) := fun p hp =>
      (snap_holds _ (first_a two) ph1 x x (tent x) rfl hp).2 ⟨h1, by linarith⟩
    intro v p hv
    dsimp only at hv
    by_cases e : v = "agent_mode"
    · rw [if_pos e] at hv
      cases hv
      exact ⟨by simp [logic, paths], e.symm, hh _ (by simp [paths])⟩
    · rw [if_neg e] at hv
      by_cases e' : v = "z"
      · rw [if_pos e'] at hv
        cases hv
        exact ⟨by simp [logic, paths], e'.symm, hh _ (by simp [paths])⟩
      · rw [if_neg e'] at hv; cases hv
  · intro p hp _
    simp only [logic, paths, List.mem_cons, List.not_mem_nil, or_false] at hp
    rcases hp with rfl | rfl <;> decide
  · intro i v z hv hz
    match i with
    | 0 =>
      simp only [logic, List.getElem?_cons_zero, Option.some.injEq] at hv
      subst hv
      have : z = "B" := by simpa [ph2] using hz.symm
      subst this
      exact .const _
    | i + 1 => simp [logic] at hv
  · intro i v hv
    match i with
    | 0 =>
      simp only [logic, List.getElem?_cons_zero, Option.some.injEq] at hv
      subst hv
      refine ⟨_, rfl, 10, rfl, ?_⟩
      have hrd : rd ['1', '0'] = some 10 := by decide +kernel
      exact hrd
    | 1 =>
      simp only [logic, List.getElem?_cons_succ, List.getElem?_cons_zero, Option.some.injEq] at hv
      subst hv
      simp [ph2]
    | i + 2 => simp [logic] at hv

/-- It is an execution if the controller looks at time `x`, but not before when the guard is true. -/
theorem execution (two : Bool) (look : ℚ → Prop) (x : ℚ) (h1 : 9/10 ≤ x) (h2 : x ≤ 1) (hx : look x) (hno : ∀ t, 9/10 ≤ t → t < x → ¬ look t) :
    CExecution meaning wld (body two) flow look 0 [(ph1, x), (ph2 x, 1)] := by
  refine .switch (by linarith) ?_ (by rwa [zero_add]) ⟨"a", logic, canSwitch two x h1 h2, ?_, ?_⟩ (.last (by norm_num) ?_)
  · intro t a dl p ht1 ht2 hl hc hp hh
    obtain ⟨rfl, rfl⟩ := ctl (two := two) rfl hc
    rw [snap_holds _ (first_a two) ph1 t t (tent t) rfl hp] at hh
    rw [zero_add] at hl
    exact hno t hh.1 ht2 hl
  · exact ⟨10, tent x, fun t _ => rfl⟩
  · intro o ho
    refine ⟨by simp [ph1, ph2, ho], fun t _ => ?_⟩
    simp only [ph1, ph2, if_neg ho]
  · intro t a dl p ht1 ht2 hl hc hp hh
    obtain ⟨rfl, rfl⟩ := ctl (two := two) rfl hc
    rw [snap_holds _ (first_a two) (ph2 x) t 10 (tent x - 10 * t) rfl hp] at hh
    linarith [hh.2]

theorem starts (two : Bool) : CStarts (body two) flow ph1 := by
  intro a ha
  have t0 : tent 0 = 0 := by decide +kernel
  have hA : CStarts (body false) flow ph1 := by
    intro a ha
    obtain rfl : a = ("a", logic) := by simpa [body] using ha
    refine ⟨rfl, rfl, fun t _ => rfl, _, rfl, ?_⟩
    show Inside [0, tent 0] _
    rw [t0]
    exact ⟨.cons le_rfl (.cons le_rfl .nil), .cons le_rfl (.cons le_rfl .nil)⟩
  cases two
  · exact hA a ha
  · simp only [body, List.mem_cons, List.not_mem_nil, or_false] at ha
    rcases ha with rfl | rfl
    · exact hA ("a", logic) (by simp [body])
    · exact ⟨rfl, rfl, ⟨0, fun t _ => by rw [zero_add]; rfl⟩, _, rfl, .cons le_rfl .nil, .cons le_rfl .nil⟩

theorem at_steps : AtSteps 1 (1 : ℚ) := ⟨1, by norm_num⟩

theorem not_at_steps (t : ℚ) (h1 : 9/10 ≤ t) (h2 : t < 1) : ¬ AtSteps 1 t := by
  rintro ⟨k, hk⟩
  rw [Rat.cast_one, mul_one] at hk
  rcases Nat.eq_zero_or_pos k with rfl | h
  · norm_num at hk; linarith
  · have : (1 : ℚ) ≤ (k : ℚ) := by exact_mod_cast h
    linarith

theorem exec_sampled (two : Bool) : CExecution meaning wld (body two) flow (AtSteps 1) 0 [(ph1, 1), (ph2 1, 1)] :=
  execution two _ 1 (by norm_num) le_rfl at_steps not_at_steps

theorem exec_urgent (two : Bool) : CExecution meaning wld (body two) flow Always 0 [(ph1, 9/10), (ph2 (9/10), 1)] :=
  execution two _ (9/10) le_rfl (by norm_num) trivial (fun t h1 h2 => absurd h1 (not_le.2 h2))

end TentEx

/-- Two agents, a controller that looks at the multiples of the time step and switches at time 1: the hypotheses of `C82_sampled_partial` and
`C83_sampled_partial` are met. -/
example : ∃ (t : RTree (Label (Body TentEx.Sn Unit ℚ String Unit) (Trace ℚ) Hits)) (us : _), PathIn t us ∧ CTracks ["a", "b"] 1 3 (0 : ℚ) 0 0 [(TentEx.ph1, 1), (TentEx.ph2 1, 1)] us ∧
    ∀ τ s, COccurs (TentEx.body true) [(TentEx.ph1, 1), (TentEx.ph2 1, 1)] τ s → τ < 3 * 1 → SafeState TentEx.meaning (TentEx.body true) s := by
  obtain ⟨t, ht⟩ := TentEx.returned (TentEx.body true)
  have hs : ∀ x, [(TentEx.ph1, (1 : ℚ)), (TentEx.ph2 1, 1)].head? = some x → CStarts (TentEx.body true) TentEx.flow x.1 := by
    rintro x ⟨⟩; exact TentEx.starts true
  have hh : ∀ mh, TentEx.cfg.maxHeight = some mh → [(TentEx.ph1, (1 : ℚ)), (TentEx.ph2 1, 1)].length < mh := by rintro mh ⟨⟩; decide
  obtain ⟨us, h1, h2⟩ := C82_sampled_partial (TentEx.verified true ht) _ (TentEx.exec_sampled true) hs hh (by simp)
  refine ⟨t, us, h1, h2, fun τ s h h' => ?_⟩
  exact C83_sampled_partial (TentEx.verified true ht) (TentEx.verified_asserts true) _ (TentEx.exec_sampled true) hs hh τ s h (by simpa using h')

/-- One agent, whose controller switches as soon as `z` is 9/10: the hypotheses of `C82_urgent_partial` and `C83_urgent_partial` are met. -/
example : ∃ (t : RTree (Label (Body TentEx.Sn Unit ℚ String Unit) (Trace ℚ) Hits)) (us : _), PathIn t us ∧ CTracks ["a"] 1 3 (1 : ℚ) 0 0 [(TentEx.ph1, 9/10), (TentEx.ph2 (9/10), 1)] us ∧
    ∀ τ s, COccurs (TentEx.body false) [(TentEx.ph1, 9/10), (TentEx.ph2 (9/10), 1)] τ s → τ < 3 * 1 → SafeState TentEx.meaning (TentEx.body false) s := by
  obtain ⟨t, ht⟩ := TentEx.returned (TentEx.body false)
  have hs : ∀ x, [(TentEx.ph1, (9/10 : ℚ)), (TentEx.ph2 (9/10), 1)].head? = some x → CStarts (TentEx.body false) TentEx.flow x.1 := by
    rintro x ⟨⟩; exact TentEx.starts false
  have hh : ∀ mh, TentEx.cfg.maxHeight = some mh → [(TentEx.ph1, (9/10 : ℚ)), (TentEx.ph2 (9/10), 1)].length < mh := by rintro mh ⟨⟩; decide
  obtain ⟨us, h1, h2⟩ := C82_urgent_partial (TentEx.verified false ht) ⟨_, rfl⟩ _ (TentEx.exec_urgent false) hs hh (by simp; norm_num)
  refine ⟨t, us, h1, by rw [Rat.cast_one] at h2; exact h2, fun τ s h h' => ?_⟩
  exact C83_urgent_partial (TentEx.verified false ht) ⟨_, rfl⟩ (TentEx.verified_asserts false) _ (TentEx.exec_urgent false) hs hh τ s h (by simpa using h')

/-- **C82** is false if a controller looks at the state all the time, even for one agent: here all conditions of `C82_urgent_partial` are met, and the agent switches at
time 9/10. At time 11/10, `y` is 7. But in no node of the tree the tube has a rectangle for time 11/10 that contains this state: the tube of the new mode is computed as
if the switch could only happen at the beginning of the step, at time 0. -/
theorem C82_late_violated : ∃ (t : RTree (Label (Body TentEx.Sn Unit ℚ String Unit) (Trace ℚ) Hits)) (ex : List (CPhase ℚ ℚ String × ℚ)),
    Verified TentEx.meaning TentEx.wld (TentEx.body false) TentEx.flow 1 3 TentEx.dim TentEx.cfg t ∧
    CExecution TentEx.meaning TentEx.wld (TentEx.body false) TentEx.flow Always 0 ex ∧ (∀ x, ex.head? = some x → CStarts (TentEx.body false) TentEx.flow x.1) ∧
    COccurs (TentEx.body false) ex (11/10) [("a", [10, 7], ["B"], [])] ∧
    (∀ u k, RTree.Below t u k → ∀ segs, Dict.get? u.label.trace "a" = some segs → ∀ s ∈ segs, (s.t0 : ℚ) ≤ 11/10 → 11/10 ≤ s.t1 → ¬ Inside [10, 7] s.box) ∧
    ¬ ∃ us, PathIn t us ∧ CTracks ["a"] 1 3 (0 : ℚ) 0 0 ex us := by
  obtain ⟨t, ht⟩ := TentEx.returned (TentEx.body false)
  have hbad : ∀ s : Seg ℚ, s ∈ TentEx.rootA.take 2 ∨ s ∈ TentEx.childA → s.t0 ≤ 11/10 → 11/10 ≤ s.t1 → ¬ Inside [(10 : ℚ), 7] s.box := by
    rintro s hs h1 h2 ⟨_, h3⟩
    simp only [TentEx.rootA, TentEx.childA, TentEx.sg, List.take_succ_cons, List.take_zero, List.mem_cons, List.not_mem_nil, or_false] at hs
    rcases hs with (rfl | rfl) | rfl | rfl | rfl <;> revert h1 h2 h3 <;> norm_num
  have hno := fun (u : RTree (Label (Body TentEx.Sn Unit ℚ String Unit) (Trace ℚ) Hits)) (k : Nat) (hu : RTree.Below t u k) segs
    (hs : Dict.get? u.label.trace "a" = some segs) (s : Seg ℚ) (hm : s ∈ segs) => hbad s ((TentEx.label ht hu).2 segs hs s hm)
  refine ⟨t, [(TentEx.ph1, 9/10), (TentEx.ph2 (9/10), 1)], TentEx.verified false ht, TentEx.exec_urgent false, ?_, ?_, hno, ?_⟩
  · rintro x ⟨⟩; exact TentEx.starts false
  · have h := COccurs.later (b := TentEx.body false) (φ := TentEx.ph1) (τ := 9/10)
      (COccurs.here (b := TentEx.body false) (φ := TentEx.ph2 (9/10)) (τ := 1) (rest := []) (t := 1/5) (by norm_num) (by norm_num))
    have e1 : (9/10 + 1/5 : ℚ) = 11/10 := by norm_num
    have e2 : (TentEx.ph2 (9/10)).snap (TentEx.body false) (1/5) = [("a", [10, 7], ["B"], [])] := by decide +kernel
    rw [e1, e2] at h
    exact h
  · rintro ⟨us, hp, htr⟩
    cases htr with
    | cons _ _ h =>
      cases h with
      | @cons _ _ _ _ _ _ v _ h2 _ =>
        obtain ⟨segs, h3, s, h4, h5, h6, h7⟩ := h2 (1/5) (by norm_num) (by norm_num) (by norm_num) "a" (by simp)
        obtain ⟨u, k, hu, rfl⟩ := TentEx.below_of_path hp v (by simp)
        have e1 : (0 + 9/10 + 1/5 : ℚ) = 11/10 := by norm_num
        have e2 : (TentEx.ph2 (9/10)).path "a" (1/5) = [10, 7] := by decide +kernel
        rw [e1] at h5 h6
        rw [e2] at h7
        exact hno u k hu segs h3 s h4 (by simpa using h5) (by simpa using h6) h7

/-- **C83** is false for several agents if a controller looks at the state all the time: `verify` reports no violation, and all conditions of `C83_urgent_partial` are
met except that there is a second agent, `b`, which has the time as its only variable. The assert is `other.t < 21/20 or ego.y < 5`. At time 11/10, `y` is 7: the tube
of `a` has such values only in the step before, where `other.t` is at most 1. -/
theorem C83_together_violated : ∃ (t : RTree (Label (Body TentEx.Sn Unit ℚ String Unit) (Trace ℚ) Hits)) (ex : List (CPhase ℚ ℚ String × ℚ)) (s : Snap ℚ String),
    Verified TentEx.meaning TentEx.wld (TentEx.body true) TentEx.flow 1 3 TentEx.dim TentEx.cfg t ∧
    (∀ n full, Visited TentEx.wld TentEx.cfg (TentEx.body true) n →
      fillTubes TentEx.wld n.body n.start (TentEx.cfg.round10 (TentEx.cfg.horizon - n.start)) n.trace = .ok full →
      AssertsFaithful TentEx.meaning TentEx.wld n.body full) ∧
    CExecution TentEx.meaning TentEx.wld (TentEx.body true) TentEx.flow Always 0 ex ∧ (∀ x, ex.head? = some x → CStarts (TentEx.body true) TentEx.flow x.1) ∧
    COccurs (TentEx.body true) ex (11/10) s ∧ ¬ SafeState TentEx.meaning (TentEx.body true) s := by
  obtain ⟨t, ht⟩ := TentEx.returned (TentEx.body true)
  refine ⟨t, [(TentEx.ph1, 9/10), (TentEx.ph2 (9/10), 1)], [("a", [10, 7], ["B"], []), ("b", [11/10], ["A"], [])], TentEx.verified true ht,
    TentEx.verified_asserts true, TentEx.exec_urgent true, ?_, ?_, ?_⟩
  · rintro x ⟨⟩; exact TentEx.starts true
  · have h := COccurs.later (b := TentEx.body true) (φ := TentEx.ph1) (τ := 9/10)
      (COccurs.here (b := TentEx.body true) (φ := TentEx.ph2 (9/10)) (τ := 1) (rest := []) (t := 1/5) (by norm_num) (by norm_num))
    have e1 : (9/10 + 1/5 : ℚ) = 11/10 := by norm_num
    have e2 : (TentEx.ph2 (9/10)).snap (TentEx.body true) (1/5) = [("a", [10, 7], ["B"], []), ("b", [11/10], ["A"], [])] := by decide +kernel
    rw [e1, e2] at h
    exact h
  · intro h
    have h1 := h "a" TentEx.logic TentEx.assertion (TentEx.controlled_a true) (by simp [TentEx.logic]) rfl
    have h2 : TentEx.apart [([10, 7], [10, 7]), ([11/10], [11/10])] = .ok (true, true) := h1
    exact absurd h2 (by decide +kernel)

end Verif.Props
