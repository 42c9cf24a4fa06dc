import Verif.Props.Source

/-!
A decision logic with a map query: the hypotheses of `C97_transition_partial` are met.
-/

set_option autoImplicit false

namespace Verif.Props.SrcMap
open Verif.Py Verif.Grd Verif.Grd.Spec Verif.Rd Verif.Rd.Spec Verif.Props

/-- A list of objects. -/
def mkList : List Wit.W → Wit.W
  | [] => .nil
  | v :: vs => .cons v (mkList vs)

/-- The map `bend` as an object, and list displays. -/
def call (o : Wit.W) (f : String) (args : List Wit.W) : Wit.W :=
  match f, args with
  | "get_lateral_distance", [.str l, p] => .num ((straightRoad bend).dist .lateral l ((Wit.elems p).map Wit.toNum))
  | "get_longitudinal_position", [.str l, p] => .num ((straightRoad bend).dist .longitudinal l ((Wit.elems p).map Wit.toNum))
  | f, args => if o = .str "list" then mkList args else Wit.call o f args

def ops : PyOps Wit.W := { Wit.ops with call := call }

theorem lawful : ops.Lawful where
  truth_ofBool := Wit.lawful.truth_ofBool
  get_set := Wit.lawful.get_set
  add_zero := Wit.lawful.add_zero

theorem agrees : Agrees ops witPut witLit where
  truth := wit_agrees.truth
  ofBool := wit_agrees.ofBool
  str := wit_agrees.str
  lit := wit_agrees.lit
  neg := wit_agrees.neg
  bin := wit_agrees.bin
  cmp := wit_agrees.cmp
  zero := wit_agrees.zero
  add := wit_agrees.add

/-- The module: `copy`, the class of the modes, list displays. -/
def ν : Store Wit.W := fun n => if n = "Mode" then .cls else if n = "[]" then .str "list" else .num 0

def N : Names where
  A := fun n => n = "copy" ∨ n = "Mode" ∨ n = "[]"
  B := fun n => n = "other"
  L := fun _ => none

def env : Env Wit.W where
  vars := [("copy", .cell (.ast (.hole "copy" none))), ("Mode", .cell (.ast (.hole "Mode" none))), ("[]", .cell (.ast (.hole "[]" none)))]
  asserts := []
  stateDefs := [("State", ["x", "y", "track_mode"])]
  modeDefs := ["Mode"]

theorem module : Module ops ν N env := by
  refine .base N env ?_ ?_ ?_ ?_ ?_ ?_ ?_
  · intro k sv h
    simp only [Env.lookup, env, Dict.get?, List.find?] at h
    by_cases h1 : "copy" = k
    · subst h1; simp at h; subst h; exact ⟨.inl rfl, none, rfl⟩
    · by_cases h2 : "Mode" = k
      · subst h2; simp at h; subst h; exact ⟨.inr (.inl rfl), none, rfl⟩
      · by_cases h3 : "[]" = k
        · subst h3; simp at h; subst h; exact ⟨.inr (.inr rfl), none, rfl⟩
        · simp [h1, h2, h3] at h
  · rintro n (rfl | rfl | rfl)
    · exact ⟨none, by decide +kernel⟩
    · exact ⟨none, by decide +kernel⟩
    · exact ⟨none, by decide +kernel⟩
  · rintro n (rfl | rfl | rfl) <;> simp [N]
  · intro n; rfl
  · intro n hn
    have : n = "Mode" := by simpa [env] using hn
    subst this
    exact ⟨.inr (.inl rfl), fun a => rfl⟩
  · intro _ v; rfl
  · simp [N]

/-- `track_map.get_lateral_distance(ego.track_mode, [ego.x, ego.y])` -/
def lateral : Expr Wit.W := .mcall "track_map" "get_lateral_distance" (.cons (.attr (.name "ego") "track_mode")
  (.cons (.call "[]" (.cons (.attr (.name "ego") "x") (.cons (.attr (.name "ego") "y") .nil))) .nil))

/-- ```
def decisionLogic(ego: State, track_map):
    out = copy.deepcopy(ego)
    if track_map.get_lateral_distance(ego.track_mode, [ego.x, ego.y]) > 0.5:
        out.track_mode = Mode.T1
    return out
``` -/
def D : Logic Wit.W where
  params := [("ego", some "State"), ("track_map", none)]
  ego := "ego"
  cls := "State"
  out := "out"
  rest := [.ite (.compare lateral (.cons ">" (.const (.num (1/2))) .nil)) [.setattr "out" "track_mode" (.attr (.name "Mode") "T1")] []]

theorem wellNamed : D.WellNamed ops ν N env ["x", "y", "track_mode"] where
  module := module
  params := by
    refine ⟨by decide, ?_, by decide⟩
    intro p hp
    simp only [D, List.map_cons, List.map_nil, List.mem_cons, List.not_mem_nil, or_false] at hp
    rcases hp with rfl | rfl <;> refine ⟨by simp [N], by simp [N], by decide +kernel⟩
  ego := by simp [D]
  state := by decide +kernel
  copy := .inl rfl
  out := ⟨by simp [N, Names.params, D], by simp [N, Names.params, D], by decide +kernel⟩
  static := by
    have hA : ∀ n, (N.params (D.params.map Prod.fst)).A n ↔ n = "ego" ∨ n = "track_map" ∨ n = "copy" ∨ n = "Mode" ∨ n = "[]" := by
      intro n; simp [N, Names.params, D, or_assoc]
    have hB : ∀ n, (N.params (D.params.map Prod.fst)).B n ↔ n = "other" := by
      intro n; rfl
    have hl : (N.params (D.params.map Prod.fst)).Local "out" := by
      refine ⟨by rw [hA]; decide, by rw [hB]; decide, by decide +kernel⟩
    simp only [D, lateral, StaticSs, StaticS, Static, StaticL, StaticC, Py.Plain, and_true, true_and]
    exact ⟨⟨(hA _).2 (by simp), .inl ((hA _).2 (by simp))⟩, hl, _, rfl, (hA _).2 (by simp)⟩

/-- What the names stand for. -/
def S : Scope := ⟨["ego"], ["x", "y", "track_mode"], [], [], ["track_map"]⟩

/-- A car at (2, 1), one unit to the left of the first segment of the lane. -/
def args : List Wit.W := [.set (.set (.set (.num 0) "x" (.num 2)) "y" (.num 1)) "track_mode" (.str "T0"), .num 0]

theorem elems_mkList (rs : List ℚ) : (Wit.elems (mkList (rs.map fun r => witPut (.num r)))).map Wit.toNum = rs := by
  induction rs with
  | nil => rfl
  | cons r rs ih =>
    simp only [List.map_cons, mkList, Wit.elems]
    rw [ih]
    rfl

theorem sees : Sees ops witPut bendWorld S (stateAt 2 1) (D.start ν args) where
  attr n hn a ha := by
    simp only [S, List.mem_cons, List.not_mem_nil, or_false] at hn ha
    subst hn
    rcases ha with rfl | rfl | rfl <;> decide +kernel
  length l hl := by simp [S] at hl
  item l hl := by simp [S] at hl
  call f hf := by simp [S] at hf
  method f hf := by simp [S] at hf
  query o ho q l rs := by
    have e : D.start ν args listName = .str "list" := by decide +kernel
    have e2 : ops.call (D.start ν args listName) "" (rs.map fun r => witPut (.num r)) = mkList (rs.map fun r => witPut (.num r)) := by
      rw [e]
      rfl
    rw [e2]
    cases q
    · show Wit.W.num ((straightRoad bend).dist .lateral l ((Wit.elems (mkList (rs.map fun r => witPut (.num r)))).map Wit.toNum)) = _
      rw [elems_mkList]
      rfl
    · show Wit.W.num ((straightRoad bend).dist .longitudinal l ((Wit.elems (mkList (rs.map fun r => witPut (.num r)))).map Wit.toNum)) = _
      rw [elems_mkList]
      rfl

theorem inRect : LenSensed bendWorld (sensedRect 1 3 0 1).len ∧ DiscSensed (stateAt 2 1) (sensedRect 1 3 0 1) ∧ InSensed (stateAt 2 1) (sensedRect 1 3 0 1) := by
  refine ⟨fun l n h => ?_, ⟨fun k v h => ?_, fun l a vs i v h => by simp [sensedRect] at h⟩, ⟨fun k iv h => ?_, fun l a ivs i iv h => by simp [sensedRect] at h⟩⟩
  · simp only [sensedRect, Dict.get?_cons] at h
    split at h
    · cases h; rfl
    · simp at h
  · simp only [sensedRect, Dict.get?_cons] at h
    split at h
    · rename_i e; cases h; subst e; rfl
    · simp at h
  · simp only [sensedRect, Dict.get?_cons] at h
    split at h
    · rename_i e; cases h; exact ⟨2, by subst e; rfl, by norm_num, by norm_num⟩
    · split at h
      · rename_i e; cases h; exact ⟨1, by subst e; rfl, by norm_num, by norm_num⟩
      · simp at h

theorem fits : QueriesFit bendWorld (straightRoad bend) (stateAt 2 1) (sensedRect 1 3 0 1) (sensedRect 1 3 0 1) (latAbove (1/2)) := by
  intro u s₂ hu hs
  have hu' : unrollF (sensedRect 1 3 0 1).len (latAbove (1/2)) = .ok (latAbove (1/2)) := by decide +kernel
  rw [hu'] at hu
  cases hu
  have hs' : addElems (sensedRect 1 3 0 1) (latAbove (1/2)) = .ok (sensedRect 1 3 0 1) := by
    simp [sensedRect, latAbove, addElems, keysF, keysT, addElem, List.foldlM, bind, Except.bind, pure, Except.pure]
  rw [hs'] at hs
  cases hs
  refine ⟨⟨trivial, ?_⟩, trivial⟩
  refine C23_straight_map_query_partial bend _ _ _ _ _ _ inRect.2.2.box (by decide +kernel) (fun lo hi h => ?_)
  have e : corners (sensedRect 1 3 0 1).cont [.attr "ego" "x", .attr "ego" "y"] = .ok ([1, 0], [3, 1]) := by decide +kernel
  rw [e] at h
  simp only [Except.ok.injEq, Prod.mk.injEq] at h
  obtain ⟨rfl, rfl⟩ := h
  exact ⟨⟨(0, 0), (1, 0), 10, 0⟩, by decide +kernel, .inl (by decide +kernel)⟩

/-- The guard can be written, and what is written is the test of the decision logic. -/
example : KnownF S (latAbove (1/2)) ∧ writeF witPut (latAbove (1/2)) = .compare lateral (.cons ">" (.const (.num (1/2))) .nil) := by
  refine ⟨?_, by decide +kernel⟩
  simp [latAbove, KnownF, KnownT, S]

set_option synthInstance.maxSize 1000 in
/-- The case: the Python program changes the track mode; the extracted transition is read by the verifier as the guard with the map query, and for the
rectangle around the state the ideal solver says that it may be hit. -/
example : ∃ contained, evalGuard bendWorld.fn (straightRoad bend) (idealSolver bendWorld) (sensedRect 1 3 0 1) (sensedRect 1 3 0 1) (latAbove (1/2)) =
    .ok (true, contained) := by
  have hex : ((extract ops.zero (.bool true) env D.params D.body D.out).map fun ir => ir.paths.map fun p => (p.var, readF witLit S p.cond)) =
      .ok [("track_mode", some (latAbove (1/2)))] := by decide +kernel
  obtain ⟨ir, hir, hpaths⟩ := (Verif.map_ok_iff _ _ _).1 hex
  have hrun : ((execs ops (D.start ν args) D.body).map fun σ => ops.getattr (σ "out") "track_mode") = .ok (.str "T1") := by decide +kernel
  obtain ⟨σ', hσ, hmode⟩ := (Verif.map_ok_iff _ _ _).1 hrun
  obtain ⟨hit, contained, hres⟩ : ∃ hit contained, evalGuard bendWorld.fn (straightRoad bend) (idealSolver bendWorld) (sensedRect 1 3 0 1)
      (sensedRect 1 3 0 1) (latAbove (1/2)) = .ok (hit, contained) :=
    evalGuard_answers _ _ (fun _ _ => .unknown) _ _ _ _ (by decide +kernel)
  rcases C97_transition_partial lawful rfl wellNamed (by decide +kernel) (by decide +kernel) hir args hσ agrees bendWorld S (stateAt 2 1) sees
    (straightRoad bend) (idealSolver bendWorld) rfl (idealSolver_ok bendWorld).1 (idealSolver_ok bendWorld).2 "track_mode" (by simp) with h | ⟨p, hp, -, -, h⟩
  · have h2 : ops.getattr (D.start ν args D.ego) "track_mode" = .str "T0" := by decide +kernel
    rw [h2] at h
    exact absurd (hmode.symm.trans h) (by decide +kernel)
  · have h3 := List.mem_map_of_mem (f := fun p : Py.Path Wit.W => (p.var, readF witLit S p.cond)) hp
    rw [hpaths] at h3
    simp only [List.mem_cons, Prod.mk.injEq, List.not_mem_nil, or_false] at h3
    have := h _ h3.2 ⟨⟨trivial, ⟨"T0", rfl⟩, ?_⟩, trivial, trivial⟩ _ _ inRect.1 inRect.2.1 inRect.2.2 (fun i => by simp [sensedRect, Dict.get?]) fits hit contained hres
    · exact ⟨contained, by rw [hres, this]⟩
    · intro k hk
      simp only [List.mem_cons, List.not_mem_nil, or_false] at hk
      rcases hk with rfl | rfl
      · exact ⟨2, rfl⟩
      · exact ⟨1, rfl⟩

end Verif.Props.SrcMap
