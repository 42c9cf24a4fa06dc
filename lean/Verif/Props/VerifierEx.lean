import Verif.Props.Verifier

/-!
Cases that meet the hypotheses of C27 and C28, and cases in which the unrestricted claims fail: agents with one variable `x` on the rational
line, whose guards are intervals.
-/

set_option autoImplicit false

namespace Verif.Props

open Verif.Ver Verif.Ver.Spec Verif.Proofs.Ver Verif.Rect.Spec Verif.Rst.Spec

namespace VerEx

/-- What an agent senses here: its own rectangle. -/
abbrev Sn := Rect.Box ℚ

/-- May the rectangle meet the interval, and is it contained in it? -/
def inInterval (lo hi : ℚ) (s : Sn) : Except String (Bool × Bool) :=
  match s with
  | ([l], [h]) => .ok (decide (l ≤ hi ∧ lo ≤ h), decide (lo ≤ l ∧ h ≤ hi))
  | _ => .error "ValueError"

/-- `if lo <= ego.x and ego.x <= hi: output.var = val` -/
def path (var : String) (lo hi : ℚ) (val : Rst.Val String Unit) : Path Sn Unit ℚ String Unit :=
  { var := var, prep := fun _ => .ok (some ()), check := fun _ s => inInterval lo hi s, cont := fun _ _ => .ok [], disc := fun _ => (), val := val }

/-- `assert (not lo <= ego.x <= hi) or (lo' <= ego.x <= hi')` -/
def assertion (lo hi lo' hi' : ℚ) : Assertion Sn := { label := "safe", pre := inInterval lo hi, cond := inInterval lo' hi' }

def sense (a : String) (sd : StateDict ℚ String) : Sn := ((sd.find? (fun x => decide (x.1 = a))).map (fun x => x.2.1.box)).getD ([], [])

/-- The numeral `10`. -/
def rd (t : Rst.Text) : Option ℚ := if t = ['1', '0'] then some 10 else none

/-- A world in which agents with this name and mode have the given tubes. -/
def world (bloat : String → List String → Tube ℚ) (mapH : Option String → List String → List String → Option String) : World Sn ℚ String :=
  { sense := sense, bloat := fun a m _ _ => bloat a m, segLen := 1000, mapH := mapH, unsafeContinue := false, round10 := id,
    sh := fun _ => [], rd := rd }

def seg (i : Nat) (l h : ℚ) : Seg ℚ := ⟨i, i + 1, ([l], [h])⟩

def logic (asserts : List (Assertion Sn)) (paths : List (Path Sn Unit ℚ String Unit)) : Logic Sn Unit ℚ String Unit :=
  { nargs := 1, asserts := asserts, paths := paths, cont := ["x"], disc := ["agent_mode"], discType := ["AgentMode"] }

/-- An agent with a controller, and one without. -/
def body (asserts : List (Assertion Sn)) (paths : List (Path Sn Unit ℚ String Unit)) : Body Sn Unit ℚ String Unit :=
  { agents := [("a", logic asserts paths), ("b", { logic [] [] with nargs := 0 })], mode := [("a", ["A"]), ("b", ["A"])],
    init := [("a", [([0], [1])]), ("b", [([5], [6])])], static := [("a", []), ("b", [])] }

def node (b : Body Sn Unit ℚ String Unit) : Engine.Work (Body Sn Unit ℚ String Unit) (Trace ℚ) :=
  { height := 0, start := 0, body := b, trace := [] }

/-- What the guards and asserts mean: they are true of the single state. -/
def point (a : String) (s : Snap ℚ String) : Sn := ((s.find? (fun x => decide (x.1 = a))).map (fun x => (x.2.1, x.2.1))).getD ([], [])

def meaning : Meaning Sn Unit ℚ String Unit :=
  { holds := fun p a s => p.check () (point a s) = .ok (true, true), vars := fun _ _ _ _ => none, disc := fun _ _ _ => (),
    pre := fun x a s => x.pre (point a s) = .ok (true, true), cond := fun x a s => x.cond (point a s) = .ok (true, true) }

theorem sense_point (a : String) (s : Snap ℚ String) (sd : StateDict ℚ String) (h : Within s sd) :
    (point a s = ([], []) ∧ sense a sd = ([], [])) ∨ ∃ p, point a s = (p, p) ∧ Inside p (sense a sd) := by
  unfold point sense
  induction h with
  | nil => exact .inl ⟨rfl, rfl⟩
  | @cons x y s sd hr _ ih =>
    obtain ⟨h1, h2, _⟩ := hr
    by_cases e : x.1 = a
    · right
      rw [List.find?_cons_of_pos (by simp [e]), List.find?_cons_of_pos (by simp [← h1, e])]
      exact ⟨_, rfl, h2⟩
    · rw [List.find?_cons_of_neg (by simp [e]), List.find?_cons_of_neg (by simp [← h1, e])]
      exact ih

/-- The answers about intervals are right. -/
theorem inInterval_spec (lo hi : ℚ) (a : String) (s : Snap ℚ String) (sd : StateDict ℚ String) (h : Within s sd) (r : Bool × Bool)
    (hr : inInterval lo hi (sense a sd) = .ok r) :
    (inInterval lo hi (point a s) = .ok (true, true) → r.1 = true) ∧ (r.2 = true → inInterval lo hi (point a s) = .ok (true, true)) := by
  rcases sense_point a s sd h with ⟨_, e2⟩ | ⟨p, e1, e2⟩
  · rw [e2] at hr; cases hr
  · rw [e1]
    generalize sense a sd = bx at hr e2
    obtain ⟨l, u⟩ := bx
    match l, u, hr with
    | [l], [u], hr =>
      obtain ⟨i1, i2⟩ := e2
      match p, i1, i2 with
      | [x], .cons i1 .nil, .cons i2 .nil =>
        simp only [inInterval, Except.ok.injEq] at hr ⊢
        subst hr
        constructor
        · intro hh
          simp only [Prod.mk.injEq, decide_eq_true_eq] at hh ⊢
          exact ⟨le_trans i1 hh.1.1, le_trans hh.1.2 i2⟩
        · intro hh
          simp only [Prod.mk.injEq, decide_eq_true_eq] at hh ⊢
          exact ⟨⟨le_trans i2 hh.2, le_trans hh.1 i1⟩, le_trans hh.1 i1, le_trans i2 hh.2⟩

/-- The paths are intervals. -/
def Intervals (ps : List (Path Sn Unit ℚ String Unit)) : Prop := ∀ p ∈ ps, ∃ var lo hi val, p = path var lo hi val

theorem controlled {asserts : List (Assertion Sn)} {paths : List (Path Sn Unit ℚ String Unit)} {a : String} {dl : Logic Sn Unit ℚ String Unit}
    (h : Controlled (body asserts paths) a dl) : a = "a" ∧ dl = logic asserts paths := by
  obtain ⟨h1, h2⟩ := h
  simp only [body, List.mem_cons, Prod.mk.injEq, List.not_mem_nil, or_false] at h1
  rcases h1 with h1 | ⟨_, rfl⟩
  · exact h1
  · exact absurd rfl h2

theorem faithful (bloat : String → List String → Tube ℚ) (mapH : Option String → List String → List String → Option String)
    (asserts : List (Assertion Sn)) (paths : List (Path Sn Unit ℚ String Unit)) (hp : Intervals paths) (tr : Trace ℚ) :
    Faithful meaning (world bloat mapH) (body asserts paths) tr := by
  refine ⟨?_, ?_, ?_, fun _ _ _ _ _ _ _ _ _ _ => rfl⟩
  · intro a dl p sd0 i snap hc hm _ hprep
    obtain ⟨rfl, rfl⟩ := controlled hc
    obtain ⟨var, lo, hi, val, rfl⟩ := hp p hm
    cases hprep
  · rintro a p i r snap ⟨dl, sd0, sd, g, hc, hm, _, hsd, _, hr⟩ ⟨sd', hsd', hin⟩ hh
    obtain ⟨rfl, rfl⟩ := controlled hc
    obtain ⟨var, lo, hi, val, rfl⟩ := hp p hm
    rw [boxes_det hsd' hsd] at hin
    exact (inInterval_spec lo hi "a" snap sd hin r hr).1 hh
  · intro a dl p sd0 i sd g C snap hc hm _ _ _ hC _
    obtain ⟨rfl, rfl⟩ := controlled hc
    obtain ⟨var, lo, hi, val, rfl⟩ := hp p hm
    cases hC
    intro t
    rfl

/-- Resets to constants can be computed. -/
theorem resettable (bloat : String → List String → Tube ℚ) (mapH : Option String → List String → List String → Option String)
    (asserts : List (Assertion Sn)) (paths : List (Path Sn Unit ℚ String Unit))
    (hp : ∀ p ∈ paths, (∃ lo hi, p = path "x" lo hi (.arith (.atom ['1', '0']))) ∨ ∃ lo hi v, p = path "agent_mode" lo hi (.const v))
    (tr : Trace ℚ) : Resettable (world bloat mapH) (body asserts paths) tr := by
  intro a dl p sd0 i sd g C hc hm _ _ _ hC
  obtain ⟨rfl, rfl⟩ := controlled hc
  rcases hp p hm with ⟨lo, hi, rfl⟩ | ⟨lo, hi, v, rfl⟩
  · cases hC
    refine ⟨fun e he _ => ?_, fun h => ?_⟩
    · cases he
      refine ⟨⟨by simp, by simp, by simp, by simp⟩, trivial, fun vars hv => ⟨⟨10, ?_⟩, by simp⟩⟩
      have : vars ['1', '0'] = none := hv ['1', '0']
      simp only [value, this, Option.none_or]
      have hrd : rd ['1', '0'] = some 10 := by decide +kernel
      exact hrd
    · simp only [path, logic, List.mem_singleton] at h
      exact absurd h (by decide)
  · exact ⟨fun e he => (by cases he), fun _ => ⟨fun e he => (by cases he), fun v he => (by cases he)⟩⟩

theorem wf (asserts : List (Assertion Sn)) (paths : List (Path Sn Unit ℚ String Unit)) : Body.WF (body asserts paths) := by
  refine ⟨by simp [body], ?_⟩
  have hl : Logic.WF (logic asserts paths) :=
    ⟨by simp [logic], by simp [logic], by simp only [logic, List.mem_singleton, forall_eq]; decide +kernel,
      by simp only [logic, List.mem_singleton, forall_eq]; decide +kernel⟩
  intro x hx
  simp only [body, List.mem_cons, List.not_mem_nil, or_false] at hx
  rcases hx with rfl | rfl
  · exact hl
  · exact ⟨by simp [logic], by simp [logic], by simp only [logic, List.mem_singleton, forall_eq]; decide +kernel,
      by simp only [logic, List.mem_singleton, forall_eq]; decide +kernel⟩

/-- Every mode change is permitted. -/
def open_ : Option String → List String → List String → Option String := fun t _ _ => t

/-- The agent `b` waits at 5. -/
def tubeB (n : Nat) : Tube ℚ := (List.range n).map (fun i => seg i 5 6)

/-! ### a case that meets the hypotheses -/

/-- `x` increases slowly; from 1 on the controller changes the mode and sets `x` to 10. -/
def okPaths : List (Path Sn Unit ℚ String Unit) :=
  [path "agent_mode" 1 100 (.const "B"), path "x" 1 100 (.arith (.atom ['1', '0']))]
def okBloat : String → List String → Tube ℚ := fun a _ => if a = "a" then [seg 0 0 (1/2), seg 1 (1/2) (3/2), seg 2 1 2] else tubeB 3
def okFull : Trace ℚ := [("a", [seg 0 0 (1/2), seg 1 (1/2) (3/2), seg 2 1 2]), ("b", tubeB 3)]
def okSnap : Snap ℚ String := [("a", [5/4], ["A"], []), ("b", [5], ["A"], [])]

/-- What can be seen of a child: start, modes, initial rectangles and tubes. -/
structure ChildView where
  start : ℚ
  mode  : Dict String (List String)
  init  : Dict String (List (Rect.Box ℚ))
  tubes : Trace ℚ
deriving DecidableEq

/-- What can be seen of the result: failed asserts, children, and the tubes. -/
structure View where
  hits  : Option (Dict String (List String))
  next  : List ChildView
  tubes : Trace ℚ
deriving DecidableEq

def view (r : Engine.Result (Body Sn Unit ℚ String Unit) (Trace ℚ) (Option (Dict String (List String)))) : View :=
  ⟨r.hits, r.next.map (fun c => ⟨c.start, c.body.mode, c.body.init, c.trace⟩), r.trace⟩

end VerEx

open VerEx

/-- The step has a child, with the mode and the rectangle after the reset, and the rest of the tube of the other agent. -/
theorem VerEx.ok_run : (verifyOne (world okBloat open_) (node (body [] okPaths)) 3).map view =
    .ok ⟨none, [⟨1, [("a", ["B"]), ("b", ["A"])], [("a", [([10], [10]), ([10], [10])]), ("b", [([5], [6])])],
      [("b", [seg 1 5 6, seg 2 5 6])]⟩], okFull⟩ := by
  decide +kernel

namespace VerEx

/-- The rectangles of the two agents. -/
theorem boxes (asserts : List (Assertion Sn)) (paths : List (Path Sn Unit ℚ String Unit)) (ta tb : Tube ℚ) (i : Nat) (sa sb : Seg ℚ)
    (ha : ta[i]? = some sa) (hb : tb[i]? = some sb) :
    Boxes (body asserts paths) [("a", ta), ("b", tb)] i [("a", sa, ["A"], []), ("b", sb, ["A"], [])] :=
  .cons ⟨rfl, ⟨ta, rfl, ha⟩, rfl, rfl⟩ (.cons ⟨rfl, ⟨tb, rfl, hb⟩, rfl, rfl⟩ .nil)

/-- What the guards of agent `a` are asked. -/
theorem asked {asserts : List (Assertion Sn)} {paths : List (Path Sn Unit ℚ String Unit)} {ta tb : Tube ℚ} {i : Nat} {sa sb : Seg ℚ}
    {bloat : String → List String → Tube ℚ} {mapH : Option String → List String → List String → Option String}
    (_hp : Intervals paths) (ha : ta[i]? = some sa) (hb : tb[i]? = some sb) {a : String} {p : Path Sn Unit ℚ String Unit} {r : Bool × Bool}
    (h : Asked (world bloat mapH) (body asserts paths) [("a", ta), ("b", tb)] i a p r) :
    a = "a" ∧ p ∈ paths ∧ p.check () sa.box = .ok r := by
  obtain ⟨dl, sd0, sd, g, hc, hm, _, hsd, _, hr⟩ := h
  obtain ⟨rfl, rfl⟩ := controlled hc
  rw [boxes_det hsd (boxes asserts paths ta tb i sa sb ha hb)] at hr
  exact ⟨rfl, hm, hr⟩

theorem hasStep (ta tb : Tube ℚ) (i : Nat) (ha : i < ta.length) (hb : i < tb.length) : HasStep [("a", ta), ("b", tb)] i := by
  intro kv hkv
  simp only [List.mem_cons, List.not_mem_nil, or_false] at hkv
  rcases hkv with rfl | rfl
  · exact ha
  · exact hb

/-- A state of the tubes. -/
theorem inTube (asserts : List (Assertion Sn)) (paths : List (Path Sn Unit ℚ String Unit)) (ta tb : Tube ℚ) (i : Nat) (sa sb : Seg ℚ)
    (ha : ta[i]? = some sa) (hb : tb[i]? = some sb) (x y : ℚ) (hx : Inside [x] sa.box) (hy : Inside [y] sb.box) :
    InTube (body asserts paths) [("a", ta), ("b", tb)] i [("a", [x], ["A"], []), ("b", [y], ["A"], [])] :=
  ⟨_, boxes asserts paths ta tb i sa sb ha hb, .cons ⟨rfl, hx, rfl⟩ (.cons ⟨rfl, hy, rfl⟩ .nil)⟩

theorem inside1 (x l h : ℚ) (h1 : l ≤ x) (h2 : x ≤ h) : Inside [x] ([l], [h]) := ⟨.cons h1 .nil, .cons h2 .nil⟩

theorem permits (bloat : String → List String → Tube ℚ) (asserts : List (Assertion Sn)) (paths : List (Path Sn Unit ℚ String Unit)) (m m' : List String) :
    MapPermits (world bloat open_) (logic asserts paths) m m' :=
  ⟨m, none, m', none, .all Verif.Spec.noTrack, .none Verif.Spec.noTrack, .all Verif.Spec.noTrack, .none Verif.Spec.noTrack, .inr rfl⟩

theorem controlled_a (asserts : List (Assertion Sn)) (paths : List (Path Sn Unit ℚ String Unit)) :
    Controlled (body asserts paths) "a" (logic asserts paths) := ⟨by simp [body], by simp [logic]⟩

/-- A switch that resets the mode only. -/
theorem canSwitch_mode (bloat : String → List String → Tube ℚ) (asserts : List (Assertion Sn)) (paths : List (Path Sn Unit ℚ String Unit))
    (x y lo hi : ℚ) (m : String) (hmem : path "agent_mode" lo hi (.const m) ∈ paths) (hx : lo ≤ x ∧ x ≤ hi)
    (honly : ∀ p ∈ paths, meaning.holds p "a" [("a", [x], ["A"], []), ("b", [y], ["A"], [])] → p.var = "agent_mode") :
    CanSwitch meaning (world bloat open_) (body asserts paths) [("a", [x], ["A"], []), ("b", [y], ["A"], [])] "a" (logic asserts paths) [m] [x] := by
  refine ⟨[x], ["A"], [], controlled_a _ _, by simp, rfl, rfl, ⟨fun v => if v = "agent_mode" then some (path "agent_mode" lo hi (.const m)) else none,
    ?_, ?_, ⟨"agent_mode", by simp⟩, rfl, rfl, ?_, ?_⟩, permits _ _ _ _ _⟩
  · intro v p hv
    dsimp only at hv
    by_cases e : v = "agent_mode"
    · rw [if_pos e] at hv
      cases hv
      refine ⟨hmem, e.symm, ?_⟩
      simp [meaning, point, path, inInterval, hx.1, hx.2]
    · rw [if_neg e] at hv; cases hv
  · intro p hp hh
    rw [honly p hp hh]; simp
  · intro i v z hv hz
    match i with
    | 0 =>
      simp only [logic, List.getElem?_cons_zero, Option.some.injEq] at hv hz
      subst hv; subst hz
      simp only [if_true]
      exact .const _
    | i + 1 => simp [logic] at hv
  · intro i v hv
    match i with
    | 0 =>
      simp only [logic, List.getElem?_cons_zero, Option.some.injEq] at hv
      subst hv
      beta_reduce
      rw [if_neg (by decide)]
    | i + 1 => simp [logic] at hv

/-- The run behind a view. -/
theorem of_view {w : World Sn ℚ String} {n : Engine.Work (Body Sn Unit ℚ String Unit) (Trace ℚ)} {t : ℚ} {v : View}
    (h : (verifyOne w n t).map view = .ok v) : ∃ res, verifyOne w n t = .ok res ∧ res.hits = v.hits ∧ res.trace = v.tubes ∧
      ∀ c ∈ res.next, (⟨c.start, c.body.mode, c.body.init, c.trace⟩ : ChildView) ∈ v.next := by
  obtain ⟨res, h1, rfl⟩ := (map_ok_iff _ _ _).1 h
  exact ⟨res, h1, rfl, rfl, fun c hc => List.mem_map_of_mem (f := fun c => (⟨c.start, c.body.mode, c.body.init, c.trace⟩ : ChildView)) hc⟩

end VerEx

/-- The hypotheses of `C27_switch_covered_partial` are met at step 1 of this run. -/
example : (∃ res, verifyOne (world okBloat open_) (node (body [] okPaths)) 3 = .ok res ∧ res.hits = none) ∧ Body.WF (body [] okPaths) ∧
    fillTubes (world okBloat open_) (body [] okPaths) 0 3 [] = .ok okFull ∧
    Faithful meaning (world okBloat open_) (body [] okPaths) okFull ∧ Resettable (world okBloat open_) (body [] okPaths) okFull ∧
    HasStep okFull 1 ∧ Reached (world okBloat open_) (body [] okPaths) okFull 1 ∧ InTube (body [] okPaths) okFull 1 okSnap ∧
    CanSwitch meaning (world okBloat open_) (body [] okPaths) okSnap "a" (logic [] okPaths) ["B"] [10] ∧
    NoExtraHit meaning (world okBloat open_) (body [] okPaths) okFull 1 "a" (logic [] okPaths) okSnap := by
  have hint : Intervals okPaths := by
    intro p hp
    simp only [okPaths, List.mem_cons, List.not_mem_nil, or_false] at hp
    rcases hp with rfl | rfl
    · exact ⟨_, _, _, _, rfl⟩
    · exact ⟨_, _, _, _, rfl⟩
  have hold : ∀ p ∈ okPaths, meaning.holds p "a" okSnap := by
    intro p hp
    simp only [okPaths, List.mem_cons, List.not_mem_nil, or_false] at hp
    rcases hp with rfl | rfl
    · show inInterval 1 100 (point "a" okSnap) = _
      decide +kernel
    · show inInterval 1 100 (point "a" okSnap) = _
      decide +kernel
  have hno : ∀ a p r, Asked (world okBloat open_) (body [] okPaths) okFull 0 a p r → r = (false, false) := by
    intro a p r h
    obtain ⟨rfl, hp, hr⟩ := asked (sa := seg 0 0 (1/2)) (sb := seg 0 5 6) hint (by decide +kernel) (by decide +kernel) h
    have : p.check () (seg 0 0 (1/2)).box = .ok (false, false) := by
      simp only [okPaths, List.mem_cons, List.not_mem_nil, or_false] at hp
      rcases hp with rfl | rfl
      · show inInterval 1 100 (seg 0 0 (1/2)).box = _
        decide +kernel
      · show inInterval 1 100 (seg 0 0 (1/2)).box = _
        decide +kernel
    rw [this] at hr
    cases hr
    rfl
  refine ⟨?_, wf _ _, by decide +kernel, faithful _ _ _ _ hint _, resettable _ _ _ _ ?_ _, hasStep _ _ _ (by decide +kernel) (by decide +kernel),
    ⟨fun j a p hj hc => ?_, fun j k a p hj hk => by omega⟩,
    inTube _ _ _ _ _ (seg 1 (1/2) (3/2)) (seg 1 5 6) (by decide +kernel) (by decide +kernel) _ _ (inside1 _ _ _ (by norm_num) (by norm_num))
      (inside1 _ _ _ (by norm_num) (by norm_num)), ?_, fun p hp _ => ⟨p, hp, rfl, hold p hp⟩⟩
  · obtain ⟨res, h1, h2, _⟩ := of_view VerEx.ok_run
    exact ⟨res, h1, h2⟩
  · intro p hp
    simp only [okPaths, List.mem_cons, List.not_mem_nil, or_false] at hp
    rcases hp with rfl | rfl
    · exact .inr ⟨_, _, _, rfl⟩
    · exact .inl ⟨_, _, rfl⟩
  · have : j = 0 := by omega
    subst this
    obtain ⟨h, hc⟩ := hc
    have := hno a p _ hc
    cases this
  · refine ⟨[5/4], ["A"], [], controlled_a _ _, by simp [okSnap], rfl, rfl, ⟨fun v => if v = "agent_mode" then some (path "agent_mode" 1 100 (.const "B")) else
      if v = "x" then some (path "x" 1 100 (.arith (.atom ['1', '0']))) else none, ?_, ?_, ⟨"x", by decide +kernel⟩, rfl, rfl, ?_, ?_⟩, permits _ _ _ _ _⟩
    · intro v p hv
      dsimp only at hv
      by_cases e : v = "agent_mode"
      · rw [if_pos e] at hv
        cases hv
        exact ⟨by simp [logic, okPaths], e.symm, hold _ (by simp [okPaths])⟩
      · rw [if_neg e] at hv
        by_cases e : v = "x"
        · rw [if_pos e] at hv
          cases hv
          exact ⟨by simp [logic, okPaths], e.symm, hold _ (by simp [okPaths])⟩
        · rw [if_neg e] at hv; cases hv
    · intro p hp _
      simp only [logic, okPaths, List.mem_cons, List.not_mem_nil, or_false] at hp
      rcases hp with rfl | rfl
      · simp [path]
      · simp [path]
    · intro i v z hv hz
      match i with
      | 0 =>
        simp only [logic, List.getElem?_cons_zero, Option.some.injEq] at hv hz
        subst hv; subst hz
        simp only [if_true]
        exact .const _
      | i + 1 => simp [logic] at hv
    · intro i v hv
      match i with
      | 0 =>
        simp only [logic, List.getElem?_cons_zero, Option.some.injEq] at hv
        subst hv
        beta_reduce
        rw [if_neg (by decide), if_pos rfl]
        refine ⟨_, rfl, 10, rfl, ?_⟩
        show (none : Option ℚ).or (rd ['1', '0']) = some 10
        decide +kernel
      | i + 1 => simp [logic] at hv

/-! ### the unrestricted claims fail -/

namespace VerEx

def gapPaths : List (Path Sn Unit ℚ String Unit) := [path "agent_mode" (-100) (1/2) (.const "B")]
def gapTube : Tube ℚ := [seg 0 0 1, seg 1 2 3, seg 2 (-1) 0]
def gapBloat : String → List String → Tube ℚ := fun a _ => if a = "a" then gapTube else tubeB 3
def gapFull : Trace ℚ := [("a", gapTube), ("b", tubeB 3)]
def gapSnap : Snap ℚ String := [("a", [-1/2], ["A"], []), ("b", [5], ["A"], [])]

def jointPaths : List (Path Sn Unit ℚ String Unit) :=
  [path "agent_mode" (-100) (1/2) (.const "B"), path "x" (3/4) 100 (.arith (.atom ['1', '0']))]
def jointTube : Tube ℚ := [seg 0 0 1]
def jointBloat : String → List String → Tube ℚ := fun a _ => if a = "a" then jointTube else tubeB 1
def jointFull : Trace ℚ := [("a", jointTube), ("b", tubeB 1)]
def jointSnap : Snap ℚ String := [("a", [1/4], ["A"], []), ("b", [5], ["A"], [])]

theorem gap_run : (verifyOne (world gapBloat open_) (node (body [] gapPaths)) 3).map view =
    .ok ⟨none, [⟨0, [("a", ["B"]), ("b", ["A"])], [("a", [([0], [1])]), ("b", [([5], [6])])], [("b", tubeB 3)]⟩],
      [("a", [seg 0 0 1]), ("b", [seg 0 5 6])]⟩ := by
  decide +kernel

theorem joint_run : (verifyOne (world jointBloat open_) (node (body [] jointPaths)) 1).map view =
    .ok ⟨none, [⟨0, [("a", ["B"]), ("b", ["A"])], [("a", [([10], [10])]), ("b", [([5], [6])])], [("b", tubeB 1)]⟩],
      [("a", [seg 0 0 1]), ("b", [seg 0 5 6])]⟩ := by
  decide +kernel

end VerEx

/-- **C27** fails after a gap: the guard may be satisfied in step 0 and in step 2 of the tube, but not in step 1. The switch from the states of
step 2 is not covered, although no guard contains the tube before. -/
theorem C27_gap_violated : ∃ res, verifyOne (world gapBloat open_) (node (body [] gapPaths)) 3 = .ok res ∧ res.hits = none ∧
    Body.WF (body [] gapPaths) ∧ fillTubes (world gapBloat open_) (body [] gapPaths) 0 3 [] = .ok gapFull ∧
    Faithful meaning (world gapBloat open_) (body [] gapPaths) gapFull ∧ Resettable (world gapBloat open_) (body [] gapPaths) gapFull ∧
    HasStep gapFull 2 ∧ (∀ j a p, j < 2 → ¬ ContainedAt (world gapBloat open_) (body [] gapPaths) gapFull j a p) ∧
    InTube (body [] gapPaths) gapFull 2 gapSnap ∧
    CanSwitch meaning (world gapBloat open_) (body [] gapPaths) gapSnap "a" (logic [] gapPaths) ["B"] [-1/2] ∧
    NoExtraHit meaning (world gapBloat open_) (body [] gapPaths) gapFull 2 "a" (logic [] gapPaths) gapSnap ∧
    ¬ ∃ c ∈ res.next, Covers (body [] gapPaths) gapFull 2 "a" ["B"] [-1/2] c := by
  have hint : Intervals gapPaths := by
    intro p hp
    simp only [gapPaths, List.mem_singleton] at hp
    exact ⟨_, _, _, _, hp⟩
  obtain ⟨res, h1, h2, _, h3⟩ := of_view gap_run
  refine ⟨res, h1, h2, wf _ _, by decide +kernel, faithful _ _ _ _ hint _, resettable _ _ _ _ ?_ _, hasStep _ _ _ (by decide +kernel) (by decide +kernel),
    fun j a p hj hc => ?_,
    inTube _ _ _ _ _ (seg 2 (-1) 0) (seg 2 5 6) (by decide +kernel) (by decide +kernel) _ _ (inside1 _ _ _ (by norm_num) (by norm_num))
      (inside1 _ _ _ (by norm_num) (by norm_num)), ?_, fun p hp _ => ⟨p, hp, rfl, ?_⟩, ?_⟩
  · intro p hp
    simp only [gapPaths, List.mem_singleton] at hp
    exact .inr ⟨_, _, _, hp⟩
  · obtain ⟨h, hc⟩ := hc
    match j, hj with
    | 0, _ =>
      obtain ⟨rfl, hp, hr⟩ := asked (sa := seg 0 0 1) (sb := seg 0 5 6) hint (by decide +kernel) (by decide +kernel) hc
      simp only [gapPaths, List.mem_singleton] at hp
      subst hp
      have : inInterval (-100) (1/2) (seg 0 0 1).box = .ok (true, false) := by decide +kernel
      have hr' : inInterval (-100) (1/2) (seg 0 0 1).box = .ok (h, true) := hr
      rw [this] at hr'
      cases hr'
    | 1, _ =>
      obtain ⟨rfl, hp, hr⟩ := asked (sa := seg 1 2 3) (sb := seg 1 5 6) hint (by decide +kernel) (by decide +kernel) hc
      simp only [gapPaths, List.mem_singleton] at hp
      subst hp
      have : inInterval (-100) (1/2) (seg 1 2 3).box = .ok (false, false) := by decide +kernel
      have hr' : inInterval (-100) (1/2) (seg 1 2 3).box = .ok (h, true) := hr
      rw [this] at hr'
      cases hr'
  · refine canSwitch_mode _ _ _ _ _ (-100) (1/2) "B" (by simp [gapPaths]) (by norm_num) ?_
    intro p hp _
    simp only [gapPaths, List.mem_singleton] at hp
    rw [hp]; rfl
  · simp only [logic, gapPaths, List.mem_singleton] at hp
    subst hp
    show inInterval (-100) (1/2) (point "a" gapSnap) = _
    decide +kernel
  · rintro ⟨c, hc, _, _, _, ⟨rs, g1, r, g2, g3⟩, _⟩
    have := h3 c hc
    simp only [List.mem_singleton] at this
    injection this with _ _ e _
    rw [e] at g1
    simp only [Dict.get?_cons, if_true, Option.some.injEq] at g1
    subst g1
    simp only [List.mem_singleton] at g2
    subst g2
    obtain ⟨g, _⟩ := g3
    cases g with
    | cons g _ => norm_num at g

/-- **C27** fails for guards that are satisfied in different parts of the tube: where `x ≤ 1/2` only the mode changes, where `x ≥ 3/4` only `x`
is set to 10. The verifier combines both, and the switch of the mode alone is not covered, already in the first step. -/
theorem C27_joint_violated : ∃ res, verifyOne (world jointBloat open_) (node (body [] jointPaths)) 1 = .ok res ∧ res.hits = none ∧
    Body.WF (body [] jointPaths) ∧ fillTubes (world jointBloat open_) (body [] jointPaths) 0 1 [] = .ok jointFull ∧
    Faithful meaning (world jointBloat open_) (body [] jointPaths) jointFull ∧ Resettable (world jointBloat open_) (body [] jointPaths) jointFull ∧
    HasStep jointFull 0 ∧ Reached (world jointBloat open_) (body [] jointPaths) jointFull 0 ∧
    InTube (body [] jointPaths) jointFull 0 jointSnap ∧
    CanSwitch meaning (world jointBloat open_) (body [] jointPaths) jointSnap "a" (logic [] jointPaths) ["B"] [1/4] ∧
    ¬ ∃ c ∈ res.next, Covers (body [] jointPaths) jointFull 0 "a" ["B"] [1/4] c := by
  have hint : Intervals jointPaths := by
    intro p hp
    simp only [jointPaths, List.mem_cons, List.not_mem_nil, or_false] at hp
    rcases hp with rfl | rfl
    · exact ⟨_, _, _, _, rfl⟩
    · exact ⟨_, _, _, _, rfl⟩
  obtain ⟨res, h1, h2, _, h3⟩ := of_view joint_run
  refine ⟨res, h1, h2, wf _ _, by decide +kernel, faithful _ _ _ _ hint _, resettable _ _ _ _ ?_ _, hasStep _ _ _ (by decide +kernel) (by decide +kernel),
    ⟨by intro j _ _ hj; omega, by intro j k _ _ hj hk; omega⟩,
    inTube _ _ _ _ _ (seg 0 0 1) (seg 0 5 6) (by decide +kernel) (by decide +kernel) _ _ (inside1 _ _ _ (by norm_num) (by norm_num))
      (inside1 _ _ _ (by norm_num) (by norm_num)), ?_, ?_⟩
  · intro p hp
    simp only [jointPaths, List.mem_cons, List.not_mem_nil, or_false] at hp
    rcases hp with rfl | rfl
    · exact .inr ⟨_, _, _, rfl⟩
    · exact .inl ⟨_, _, rfl⟩
  · refine canSwitch_mode _ _ _ _ _ (-100) (1/2) "B" (by simp [jointPaths]) (by norm_num) ?_
    intro p hp hh
    simp only [jointPaths, List.mem_cons, List.not_mem_nil, or_false] at hp
    rcases hp with rfl | rfl
    · rfl
    · have e : inInterval (3/4) 100 (point "a" jointSnap) = .ok (false, false) := by decide +kernel
      have hh' : inInterval (3/4) 100 (point "a" jointSnap) = .ok (true, true) := hh
      rw [e] at hh'
      cases hh'
  · rintro ⟨c, hc, _, _, _, ⟨rs, g1, r, g2, g3⟩, _⟩
    have := h3 c hc
    simp only [List.mem_singleton] at this
    injection this with _ _ e _
    rw [e] at g1
    simp only [Dict.get?_cons, if_true, Option.some.injEq] at g1
    subst g1
    simp only [List.mem_singleton] at g2
    subst g2
    obtain ⟨g, _⟩ := g3
    cases g with
    | cons g _ => norm_num at g

/-! ### C28 -/

namespace VerEx

/-- `assert ego.x <= 3`, in every state -/
def safe3 : Assertion Sn := assertion (-100) 100 (-100) 3
def safeTube : Tube ℚ := [seg 0 0 1, seg 1 1 4]
def safeBloat : String → List String → Tube ℚ := fun a _ => if a = "a" then safeTube else tubeB 2

/-- `assert not (ego.x <= 1/2) or ego.x >= 1/4` -/
def partSafe : Assertion Sn := assertion (-100) (1/2) (1/4) 100

theorem safe_run : (verifyOne (world safeBloat open_) (node (body [safe3] [])) 2).map view =
    .ok ⟨some [("a", ["safe"])], [], [("a", safeTube), ("b", tubeB 2)]⟩ := by
  decide +kernel

theorem part_run : (verifyOne (world jointBloat open_) (node (body [partSafe] [])) 1).map view = .ok ⟨none, [], jointFull⟩ := by
  decide +kernel

end VerEx

/-- The hypotheses of `C28_failure_recorded_partial` are met: at step 1 `x` may be larger than 3. -/
example : (∃ res, verifyOne (world safeBloat open_) (node (body [safe3] [])) 2 = .ok res ∧ res.hits = some [("a", ["safe"])]) ∧
    (∀ i a dl x sd, Controlled (body [safe3] []) a dl → x ∈ dl.asserts → Boxes (body [safe3] []) [("a", safeTube), ("b", tubeB 2)] i sd →
      x.cond (sense a sd) = .ok (true, true) → ∀ s, Within s sd → meaning.cond x a s) ∧
    (let full : Trace ℚ := [("a", safeTube), ("b", tubeB 2)]
     let snap : Snap ℚ String := [("a", [7/2], ["A"], []), ("b", [5], ["A"], [])]
     let sd : StateDict ℚ String := [("a", seg 1 1 4, ["A"], []), ("b", seg 1 5 6, ["A"], [])]
     HasStep full 1 ∧ Reached (world safeBloat open_) (body [safe3] []) full 1 ∧ Boxes (body [safe3] []) full 1 sd ∧
     safe3.pre (sense "a" sd) = .ok (true, true) ∧ Within snap sd ∧ ¬ meaning.cond safe3 "a" snap) := by
  refine ⟨?_, ?_, hasStep _ _ _ (by decide +kernel) (by decide +kernel), ⟨?_, ?_⟩, boxes _ _ _ _ _ _ _ (by decide +kernel) (by decide +kernel), by decide +kernel, ?_, ?_⟩
  · obtain ⟨res, h1, h2, _⟩ := of_view safe_run
    exact ⟨res, h1, h2⟩
  · intro i a dl x sd hc hx _ hr s hs
    obtain ⟨rfl, rfl⟩ := controlled hc
    simp only [logic, List.mem_singleton] at hx
    subst hx
    exact (inInterval_spec _ _ _ s sd hs _ hr).2 rfl
  · rintro j a p _ ⟨h, dl, _, _, _, hc, hm, _⟩
    obtain ⟨rfl, rfl⟩ := controlled hc
    cases hm
  · intro j k a p hj hk
    omega
  · exact .cons ⟨rfl, inside1 _ _ _ (by norm_num) (by norm_num), rfl⟩ (.cons ⟨rfl, inside1 _ _ _ (by norm_num) (by norm_num), rfl⟩ .nil)
  · show ¬ inInterval (-100) 3 (point "a" [("a", [7/2], ["A"], []), ("b", [5], ["A"], [])]) = .ok (true, true)
    decide +kernel

/-- **C28** fails if the precondition is true in part of the tube only: in the state `x = 0` of the first step the precondition `x ≤ 1/2` is true
and the condition `x ≥ 1/4` false, but nothing is recorded. -/
theorem C28_precondition_violated : ∃ res, verifyOne (world jointBloat open_) (node (body [partSafe] [])) 1 = .ok res ∧ res.hits = none ∧
    fillTubes (world jointBloat open_) (body [partSafe] []) 0 1 [] = .ok jointFull ∧ HasStep jointFull 0 ∧
    Reached (world jointBloat open_) (body [partSafe] []) jointFull 0 ∧
    (let snap : Snap ℚ String := [("a", [0], ["A"], []), ("b", [5], ["A"], [])]
     InTube (body [partSafe] []) jointFull 0 snap ∧ partSafe ∈ (logic [partSafe] []).asserts ∧ Controlled (body [partSafe] []) "a" (logic [partSafe] []) ∧
     meaning.pre partSafe "a" snap ∧ ¬ meaning.cond partSafe "a" snap) := by
  obtain ⟨res, h1, h2, _⟩ := of_view part_run
  refine ⟨res, h1, h2, by decide +kernel, hasStep _ _ _ (by decide +kernel) (by decide +kernel), ⟨by intro j _ _ hj; omega, by intro j k _ _ hj hk; omega⟩,
    inTube _ _ _ _ _ (seg 0 0 1) (seg 0 5 6) (by decide +kernel) (by decide +kernel) _ _ (inside1 _ _ _ (by norm_num) (by norm_num))
      (inside1 _ _ _ (by norm_num) (by norm_num)), by simp [logic], controlled_a _ _, ?_, ?_⟩
  · show inInterval (-100) (1/2) (point "a" [("a", [0], ["A"], []), ("b", [5], ["A"], [])]) = .ok (true, true)
    decide +kernel
  · show ¬ inInterval (1/4) 100 (point "a" [("a", [0], ["A"], []), ("b", [5], ["A"], [])]) = .ok (true, true)
    decide +kernel

/-- With `unsafe_continue`, a failed assert raises an exception. -/
theorem C28_unsafe_continue_violated :
    verifyOne { world safeBloat open_ with unsafeContinue := true } (node (body [safe3] [])) 2 = .error "TypeError" := rfl

end Verif.Props
