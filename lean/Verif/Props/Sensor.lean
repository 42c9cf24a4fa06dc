import Verif.Proofs.Sensor

/-!
C48: what the default sensor shows a decision logic.
-/

set_option autoImplicit false

namespace Verif.Props
open Verif.Sns

variable {C D K : Type}

/-- The arguments that the theorems below speak of: the type of the ego agent is the annotation of the argument `ego`, and the list of the other
agents is the first argument that is neither `ego` nor a map. -/
theorem C48_arguments (args : List Arg) (te : String) (hn : (args.map Arg.name).Nodup) (h : ⟨"ego", some te⟩ ∈ args) :
    egoType args = some te ∧
    ∀ pre a post, args = pre ++ a :: post → (∀ b ∈ pre, b.name = "ego" ∨ "map".toList <:+: b.name.toList) → a.name ≠ "ego" →
      ¬ "map".toList <:+: a.name.toList → otherArg args = some a := by
  constructor
  · obtain ⟨pre, post, rfl⟩ := List.append_of_mem h
    rw [List.map_append, List.nodup_append] at hn
    have hpre : pre.find? (fun a => decide (a.name = "ego")) = none := by
      rw [List.find?_eq_none]
      intro b hb
      simp only [decide_eq_true_eq]
      intro e
      exact hn.2.2 b.name (List.mem_map_of_mem hb) "ego" (by simp) e
    simp only [egoType, List.find?_append, hpre, Option.none_or, List.find?_cons, decide_true, Option.bind_some]
  · rintro pre a post rfl hpre h1 h2
    have : pre.find? (fun a => decide (a.name ≠ "ego") && !decide ("map".toList <:+: a.name.toList)) = none := by
      rw [List.find?_eq_none]
      intro b hb
      rcases hpre b hb with e | e
      · simp [e]
      · simp only [Bool.and_eq_true, decide_eq_true_eq, Bool.not_eq_true', decide_eq_false_iff_not, not_and, not_not]
        exact fun _ => e
    have h3 : (fun a : Arg => decide (a.name ≠ "ego") && !decide ("map".toList <:+: a.name.toList)) a = true := by
      simp only [Bool.and_eq_true, decide_eq_true_eq, Bool.not_eq_true', decide_eq_false_iff_not]
      exact ⟨h1, h2⟩
    dsimp only at h3
    unfold otherArg
    rw [List.find?_append, this, Option.none_or, List.find?_cons, h3]

/-- The arguments of a usual decision logic. -/
example : (([⟨"ego", some "Car"⟩, ⟨"track_map", none⟩, ⟨"others", some "Car"⟩] : List Arg).map Arg.name).Nodup := by decide +kernel

/-- **C48** (partial: every other agent has one value per variable of the type the ego agent declares for the list, and only
the first list argument is considered). Sensing succeeds; the dictionaries show exactly the ego agent's own values and, for each
variable, the list of the values of all other agents in the order of the scenario, so that the same position in two lists is the
same agent; the reported number of others is right. -/
theorem C48_sense_partial (ego : String) (args : List Arg) (defs : Dict String Def) (sd : Dict String (AgentState C D)) (se : AgentState C D)
    (te : String) (de : Def) (a : Arg) (t : String) (df : Def)
    (hids : (sd.map Prod.fst).Nodup) (hego : (ego, se) ∈ sd)
    (hte : egoType args = some te) (hde : Dict.get? defs te = some de) (hfe : Fits de se) (hec : de.cont.Nodup) (hed : (de.disc ++ de.static).Nodup)
    (ha : otherArg args = some a) (ht : a.typ = some t) (hdf : Dict.get? defs t = some df) (hdot : '.' ∉ a.name.toList)
    (hnc : df.cont.Nodup) (hnd : (df.disc ++ df.static).Nodup)
    (hfit : ∀ e ∈ sd, e.1 ≠ ego → Fits df e.2) :
    ∃ cont disc, sense ego args defs sd = .ok ((cont, disc), ((sd.filter (fun e => decide (e.1 ≠ ego))).length : Int)) ∧
      Shows cont (contPairs de se) a.name df.cont ((sd.filter (fun e => decide (e.1 ≠ ego))).map (fun e => contPairs df e.2)) ∧
      Shows disc (discPairs de se) a.name (df.disc ++ df.static) ((sd.filter (fun e => decide (e.1 ≠ ego))).map (fun e => discPairs df e.2)) := by
  obtain ⟨pre, post, rfl⟩ := List.append_of_mem hego
  have harg : a.name ≠ "ego" := by
    have := List.find?_some ha
    simp only [Bool.and_eq_true, decide_eq_true_eq] at this
    exact this.1
  rw [List.map_append, List.map_cons, List.nodup_append] at hids
  obtain ⟨_, hn2, hn3⟩ := hids
  rw [List.nodup_cons] at hn2
  have hpre : ∀ e ∈ pre, e.1 ≠ ego := fun e he h => hn3 e.1 (List.mem_map_of_mem he) e.1 (by rw [h]; exact List.mem_cons_self) rfl
  have hpost : ∀ e ∈ post, e.1 ≠ ego := fun e he h => hn2.1 (List.mem_map.2 ⟨e, he, h⟩)
  have hfilter : (pre ++ (ego, se) :: post).filter (fun e => decide (e.1 ≠ ego)) = pre ++ post := by
    rw [List.filter_append, List.filter_cons_of_neg (by simp), List.filter_eq_self.2 (fun e he => by simpa using hpre e he),
      List.filter_eq_self.2 (fun e he => by simpa using hpost e he)]
  rw [hfilter]
  have s0 : ∀ {V : Type} (ns : List String), Shows ([] : Dict String (Val V)) [] a.name ns [] := fun ns =>
    ⟨fun _ _ h => (List.not_mem_nil h).elim, fun h => absurd rfl h, fun _ _ h => by simp at h⟩
  obtain ⟨st1, h1, c1, d1⟩ := others_loop (ego := ego) ha ht hdf hnc hnd hdot harg [] [] pre ([], [])
    [] [] (fun e he => ⟨hpre e he, hfit e (by simp [he]) (hpre e he)⟩) (s0 _) (s0 _)
  have c2 := shows_ego c1 (contPairs de se) (by rw [keys_cont hfe]; exact hec) hdot harg
  have d2 := shows_ego d1 (discPairs de se) (by rw [keys_disc hfe]; exact hed) hdot harg
  obtain ⟨st3, h3, c3, d3⟩ := others_loop (ego := ego) ha ht hdf hnc hnd hdot harg _ _ post (setsP st1.1 "ego" (contPairs de se), setsP st1.2 "ego" (discPairs de se))
    _ _ (fun e he => ⟨hpost e he, hfit e (by simp [he]) (hpost e he)⟩) c2 d2
  refine ⟨st3.1, st3.2, ?_, by simpa using c3, by simpa using d3⟩
  simp only [sense, if_neg (show ¬ (pre ++ (ego, se) :: post = []) by simp)]
  refine (map_ok_iff _ _ _).2 ⟨st3, ?_, ?_⟩
  · rw [List.foldlM_append]
    refine (bind_ok_iff _ _ _).2 ⟨st1, h1, ?_⟩
    refine (foldlM_cons_ok _ _ _ _ _).2 ⟨_, ?_, h3⟩
    simp only [senseStep, senseEgo, hte, hde, setStates_eq, if_true]
  · simp only [List.length_append, List.length_cons]
    congr 1
    push_cast
    omega

/-- **C48**, a decision logic that only takes its own state: it is shown exactly its own values. -/
theorem C48_alone (ego : String) (args : List Arg) (defs : Dict String Def) (sd : Dict String (AgentState C D)) (se : AgentState C D) (te : String) (de : Def)
    (hids : (sd.map Prod.fst).Nodup) (hego : (ego, se) ∈ sd) (hte : egoType args = some te) (hde : Dict.get? defs te = some de) (hfe : Fits de se)
    (hec : de.cont.Nodup) (hed : (de.disc ++ de.static).Nodup) (ha : otherArg args = none) :
    ∃ cont disc n, sense ego args defs sd = .ok ((cont, disc), n) ∧ Shows cont (contPairs de se) "others" [] [] ∧ Shows disc (discPairs de se) "others" [] [] := by
  obtain ⟨pre, post, rfl⟩ := List.append_of_mem hego
  rw [List.map_append, List.map_cons, List.nodup_append] at hids
  obtain ⟨_, hn2, hn3⟩ := hids
  rw [List.nodup_cons] at hn2
  have hpre : ∀ e ∈ pre, e.1 ≠ ego := fun e he h => hn3 e.1 (List.mem_map_of_mem he) e.1 (by rw [h]; exact List.mem_cons_self) rfl
  have hpost : ∀ e ∈ post, e.1 ≠ ego := fun e he h => hn2.1 (List.mem_map.2 ⟨e, he, h⟩)
  have hloop : ∀ (l : List (String × AgentState C D)) (st : Dict String (Val C) × Dict String (Val D)), (∀ e ∈ l, e.1 ≠ ego) →
      l.foldlM (senseStep ego args defs) st = .ok st := by
    intro l
    induction l with
    | nil => intro st _; rfl
    | cons e l ih =>
      intro st h
      refine (foldlM_cons_ok _ _ _ _ _).2 ⟨st, ?_, ih st (fun x hx => h x (List.mem_cons_of_mem _ hx))⟩
      simp only [senseStep, if_neg (h e List.mem_cons_self), senseOther, ha]
  have s0 : ∀ {V : Type}, Shows ([] : Dict String (Val V)) [] "others" [] [] :=
    ⟨fun _ _ h => (List.not_mem_nil h).elim, fun h => absurd rfl h, fun _ _ h => by simp at h⟩
  refine ⟨setsP [] "ego" (contPairs de se), setsP [] "ego" (discPairs de se), ((pre ++ (ego, se) :: post).length : Int) - 1, ?_,
    shows_ego s0 _ (by rw [keys_cont hfe]; exact hec) (by decide) (by decide), shows_ego s0 _ (by rw [keys_disc hfe]; exact hed) (by decide) (by decide)⟩
  simp only [sense, if_neg (show ¬ (pre ++ (ego, se) :: post = []) by simp)]
  refine (map_ok_iff _ _ _).2 ⟨_, ?_, rfl⟩
  rw [List.foldlM_append]
  refine (bind_ok_iff _ _ _).2 ⟨_, hloop pre _ hpre, ?_⟩
  refine (foldlM_cons_ok _ _ _ _ _).2 ⟨_, ?_, hloop post _ hpost⟩
  simp only [senseStep, senseEgo, hte, hde, setStates_eq, if_true]

/-- **C48**, simulation: the values are those of the state vector, without its time. -/
theorem C48_sim_values (t : K) (xs : List K) : simValues (t :: xs) = xs := rfl

/-- **C48**, verification: the value of a variable is the pair of its lower and upper bound in the rectangle. -/
theorem C48_box_values (t0 t1 : K) (lo hi : List K) (h : lo.length = hi.length) :
    boxValues [t0 :: lo, t1 :: hi] = List.zipWith (fun a b => [a, b]) lo hi := by
  apply List.ext_getElem
  · simp [boxValues, h]
  · intro i h1 h2
    simp only [boxValues, List.map_cons, List.map_nil, List.drop_one, List.tail_cons, List.length_map, List.length_range] at h1
    have hhi : i < hi.length := h ▸ h1
    simp [boxValues, List.getElem?_eq_getElem h1, List.getElem?_eq_getElem hhi]

namespace SnsEx

def ego : Arg := ⟨"ego", some "State"⟩
def others : Arg := ⟨"others", some "State"⟩
def trackMap : Arg := ⟨"track_map", none⟩
def defs : Dict String Def := [("State", ⟨["x", "v"], ["mode"], ["kind"]⟩), ("Truck", ⟨["x", "load"], ["mode"], []⟩)]
def car (x v : Int) (m : String) : AgentState Int String := ⟨[x, v], [m], ["car"]⟩
def sd : Dict String (AgentState Int String) := [("a", car 1 2 "N"), ("b", car 3 4 "L"), ("c", car 5 6 "R")]

/-- The hypotheses of `C48_sense_partial` hold for three cars, seen by the second. -/
example : ∃ cont disc, sense "b" [ego, others, trackMap] defs sd = .ok ((cont, disc), 2) ∧
    Shows cont [("x", 3), ("v", 4)] "others" ["x", "v"] [[("x", 1), ("v", 2)], [("x", 5), ("v", 6)]] ∧
    Shows disc [("mode", "L"), ("kind", "car")] "others" ["mode", "kind"] [[("mode", "N"), ("kind", "car")], [("mode", "R"), ("kind", "car")]] :=
  C48_sense_partial "b" [ego, others, trackMap] defs sd (car 3 4 "L") "State" ⟨["x", "v"], ["mode"], ["kind"]⟩ others "State" ⟨["x", "v"], ["mode"], ["kind"]⟩
    (by decide) (by simp [sd]) (by decide) (by rfl) ⟨rfl, rfl, rfl⟩ (by decide) (by decide) (by decide +kernel) rfl (by rfl) (by decide) (by decide) (by decide)
    (by
      intro e he _
      simp only [sd, List.mem_cons, List.not_mem_nil, or_false] at he
      rcases he with rfl | rfl | rfl <;> exact ⟨rfl, rfl, rfl⟩)

example : sense "b" [ego, others, trackMap] defs sd = .ok
    (([("others.x", .many [1, 5]), ("others.v", .many [2, 6]), ("ego.x", .one 3), ("ego.v", .one 4)],
      [("others.mode", .many ["N", "R"]), ("others.kind", .many ["car", "car"]), ("ego.mode", .one "L"), ("ego.kind", .one "car")]), 2) := by decide +kernel

example : ∃ cont disc n, sense "b" [ego, trackMap] defs sd = .ok ((cont, disc), n) ∧
    Shows cont [("x", 3), ("v", 4)] "others" [] [] ∧ Shows disc [("mode", "L"), ("kind", "car")] "others" [] [] :=
  C48_alone "b" [ego, trackMap] defs sd (car 3 4 "L") "State" ⟨["x", "v"], ["mode"], ["kind"]⟩
    (by decide) (by simp [sd]) (by decide) (by rfl) ⟨rfl, rfl, rfl⟩ (by decide) (by decide) (by decide +kernel)

example : boxValues [[0, 1, 2], [1, 3, 4]] = [[1, 3], [2, 4]] := by decide +kernel

/-- A pedestrian with one continuous variable, between cars. -/
def sdMixed : Dict String (AgentState Int String) := [("a", ⟨[1], ["N"], []⟩), ("b", car 3 4 "L"), ("c", car 5 6 "R")]

end SnsEx

/-- **C48 fails** for agents with state vectors of different lengths: the lists of two variables are not aligned. For ego agent
`b`, position 0 is agent `a` in the list of `x` and agent `c` in the list of `v`. -/
theorem C48_mixed_violated :
    (sense "b" [SnsEx.ego, SnsEx.others] SnsEx.defs SnsEx.sdMixed).map (fun r => (Dict.get? r.1.1 "others.x", Dict.get? r.1.1 "others.v", r.2)) =
      .ok (some (.many [1, 5]), some (.many [6]), 2) := by decide +kernel

/-- **C48 fails** for a second list argument: nothing is shown under its name. -/
theorem C48_second_list_violated (ego : String) (args : List Arg) (defs : Dict String Def) (sd : Dict String (AgentState C D)) (se : AgentState C D)
    (te : String) (de : Def) (a b : Arg) (t : String) (df : Def)
    (hids : (sd.map Prod.fst).Nodup) (hego : (ego, se) ∈ sd)
    (hte : egoType args = some te) (hde : Dict.get? defs te = some de) (hfe : Fits de se) (hec : de.cont.Nodup) (hed : (de.disc ++ de.static).Nodup)
    (ha : otherArg args = some a) (ht : a.typ = some t) (hdf : Dict.get? defs t = some df) (hdot : '.' ∉ a.name.toList)
    (hnc : df.cont.Nodup) (hnd : (df.disc ++ df.static).Nodup)
    (hfit : ∀ e ∈ sd, e.1 ≠ ego → Fits df e.2)
    (_hb : b ∈ args) (hba : b.name ≠ a.name) (hbe : b.name ≠ "ego") (hbdot : '.' ∉ b.name.toList) :
    ∃ cont disc n, sense ego args defs sd = .ok ((cont, disc), n) ∧ ∀ k, Dict.get? cont (b.name ++ "." ++ k) = none ∧ Dict.get? disc (b.name ++ "." ++ k) = none := by
  obtain ⟨cont, disc, h, hc, hd⟩ := C48_sense_partial ego args defs sd se te de a t df hids hego hte hde hfe hec hed ha ht hdf hdot hnc hnd hfit
  refine ⟨cont, disc, _, h, fun k => ⟨?_, ?_⟩⟩
  · cases hg : Dict.get? cont (b.name ++ "." ++ k) with
    | none => rfl
    | some x =>
      rcases hc.only _ x hg with ⟨k', v, _, he⟩ | ⟨_, k', _, he⟩
      · exact absurd (key_thing hbdot (by decide) he) hbe
      · exact absurd (key_thing hbdot hdot he) hba
  · cases hg : Dict.get? disc (b.name ++ "." ++ k) with
    | none => rfl
    | some x =>
      rcases hd.only _ x hg with ⟨k', v, _, he⟩ | ⟨_, k', _, he⟩
      · exact absurd (key_thing hbdot (by decide) he) hbe
      · exact absurd (key_thing hbdot hdot he) hba

end Verif.Props
