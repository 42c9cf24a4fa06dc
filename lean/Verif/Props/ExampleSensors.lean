import Verif.Model.ExampleSensors
import Verif.Props.Sensor

/-!
C91: what the example sensors show a decision logic. The specification is the one of C48 (`Shows`).
-/

set_option autoImplicit false

namespace Verif.Props
open Verif.Sns

variable {C D : Type}

/-- What these sensors read of an agent: as many variables as they have names for, the modes, no static parameters. -/
def readOf (n : Nat) (v : AgentState C D) : AgentState C D := ⟨v.cont.take n, v.mode, []⟩

theorem fixedStep_eq (df : Def) (hs : df.static = []) (sim : Bool) (ego : String) (st : Dict String (Val C) × Dict String (Val D))
    (e : String × AgentState C D) (hl : df.cont.length ≤ e.2.cont.length) :
    fixedStep df sim ego st e =
      senseStep ego [⟨"ego", some "S"⟩, ⟨"others", some "S"⟩] [("S", df)] st (e.1, readOf df.cont.length e.2) := by
  have hc : fixedCheck df sim e.2 = .ok () := by
    unfold fixedCheck
    cases sim <;> simp [List.length_take, hl]
  have h1 : egoType [⟨"ego", some "S"⟩, ⟨"others", some "S"⟩] = some "S" := by decide +kernel
  have h2 : otherArg [⟨"ego", some "S"⟩, ⟨"others", some "S"⟩] = some ⟨"others", some "S"⟩ := by decide +kernel
  have h3 : Dict.get? [("S", df)] "S" = some df := by simp [Dict.get?_cons]
  have n1 : ∀ (d : Dict String (Val D)) (t : String), sets d t ([] : List String) ([] : List D) = d := fun _ _ => rfl
  have n2 : ∀ (d : Dict String (Val D)) (t : String), adds d t ([] : List String) ([] : List D) = .ok d := fun _ _ => rfl
  unfold fixedStep senseStep
  by_cases he : e.1 = ego
  · simp only [he, if_true, fixedSet, hc, senseEgo, h1, h3, setStates, readOf, hs, n1]
    rfl
  · simp only [he, if_false, fixedAdd, hc, senseOther, h2, h3, addStates, readOf, hs, n2]
    rfl

theorem fold_eq {S A B : Type} (f : S → A → Except String S) (g : S → B → Except String S) (m : A → B) : ∀ (l : List A) (s : S),
    (∀ a ∈ l, ∀ s, f s a = g s (m a)) → l.foldlM f s = (l.map m).foldlM g s
  | [], _, _ => rfl
  | a :: l, s, h => by
    rw [List.map_cons, List.foldlM_cons, List.foldlM_cons, h a List.mem_cons_self]
    cases g s (m a) with
    | error e => rfl
    | ok s' => exact fold_eq f g m l s' fun b hb => h b (List.mem_cons_of_mem _ hb)

/-- **C91** (partial: every agent has at least as many variables as the sensor has names, and one mode per name). The sensors
with fixed names show exactly the ego agent's own values and, for each name, the list of the values of all other agents in the
order of the scenario. This holds in `simulate` and in `verify`. `df` stands for the names of any of the three classes. -/
theorem C91_named_partial (df : Def) (hs : df.static = []) (hnc : df.cont.Nodup) (hnd : df.disc.Nodup) (sim : Bool) (ego : String)
    (sd : Dict String (AgentState C D)) (se : AgentState C D) (hids : (sd.map Prod.fst).Nodup) (hego : (ego, se) ∈ sd)
    (hfit : ∀ e ∈ sd, df.cont.length ≤ e.2.cont.length ∧ e.2.mode.length = df.disc.length) :
    ∃ cont disc, fixedSense df sim ego sd = .ok ((cont, disc), ((sd.filter (fun e => decide (e.1 ≠ ego))).length : Int)) ∧
      Shows cont (df.cont.zip se.cont) "others" df.cont ((sd.filter (fun e => decide (e.1 ≠ ego))).map (fun e => df.cont.zip e.2.cont)) ∧
      Shows disc (df.disc.zip se.mode) "others" df.disc ((sd.filter (fun e => decide (e.1 ≠ ego))).map (fun e => df.disc.zip e.2.mode)) := by
  have hz : ∀ (ks : List String) (vs : List C), ks.zip (vs.take ks.length) = ks.zip vs := by
    intro ks
    induction ks with
    | nil => intro vs; simp
    | cons k ks ih => intro vs; cases vs with
      | nil => simp
      | cons v vs => simp [ih vs]
  have hf : ∀ e ∈ sd, Fits df (readOf df.cont.length e.2) := fun e he =>
    ⟨by simp [readOf, List.length_take, (hfit e he).1], (hfit e he).2, by simp [readOf, hs]⟩
  obtain ⟨cont, disc, h, hc, hd⟩ := C48_sense_partial ego [⟨"ego", some "S"⟩, ⟨"others", some "S"⟩] [("S", df)]
    (sd.map fun e => (e.1, readOf df.cont.length e.2)) (readOf df.cont.length se) "S" df ⟨"others", some "S"⟩ "S" df
    (by rw [List.map_map]; exact hids) (List.mem_map.2 ⟨(ego, se), hego, rfl⟩) (by decide +kernel) (by simp [Dict.get?_cons]) (hf _ hego) hnc
    (by rw [hs, List.append_nil]; exact hnd) (by decide +kernel) rfl (by simp [Dict.get?_cons]) (by decide +kernel) hnc
    (by rw [hs, List.append_nil]; exact hnd)
    (by
      intro e he _
      obtain ⟨e', he', rfl⟩ := List.mem_map.1 he
      exact hf e' he')
  have hfl : (sd.map fun e => (e.1, readOf df.cont.length e.2)).filter (fun e => decide (e.1 ≠ ego)) =
      (sd.filter (fun e => decide (e.1 ≠ ego))).map fun e => (e.1, readOf df.cont.length e.2) := by
    rw [List.filter_map]; rfl
  rw [hfl] at h hc hd
  rw [List.map_map] at hc hd
  refine ⟨cont, disc, ?_, ?_, ?_⟩
  · rw [← List.length_map (f := fun e : String × AgentState C D => (e.1, readOf df.cont.length e.2)), ← h]
    unfold fixedSense sense
    have hne : sd ≠ [] := List.ne_nil_of_mem hego
    rw [if_neg hne, if_neg (by simpa using hne), List.length_map,
      fold_eq (fixedStep df sim ego) (senseStep ego [⟨"ego", some "S"⟩, ⟨"others", some "S"⟩] [("S", df)]) _ sd _
        (fun e he s => fixedStep_eq df hs sim ego s e (hfit e he).1)]
  · simpa [contPairs, readOf, Function.comp_def, hz] using hc
  · simpa [discPairs, readOf, Function.comp_def, hs] using hd

/-- The three classes meet the conditions on names. -/
theorem C91_names : ∀ df ∈ [thermoDef, craftDef, quadrotorDef], df.static = [] ∧ df.cont.Nodup ∧ df.disc.Nodup := by
  intro df h
  simp only [List.mem_cons, List.not_mem_nil, or_false] at h
  rcases h with rfl | rfl | rfl <;> exact ⟨rfl, by decide +kernel, by decide +kernel⟩

/-- In `verify`, an agent with too few variables is an error, whatever the other agents are. -/
theorem C91_short (df : Def) (ego : String) (sd : Dict String (AgentState C D)) (e : String × AgentState C D) (he : e ∈ sd)
    (hl : e.2.cont.length < df.cont.length) : ∀ r, fixedSense df false ego sd ≠ .ok r := by
  have key : ∀ (l : List (String × AgentState C D)) (s r : Dict String (Val C) × Dict String (Val D)), e ∈ l →
      l.foldlM (fixedStep df false ego) s ≠ .ok r := by
    intro l
    induction l with
    | nil => intro _ _ h; exact (List.not_mem_nil h).elim
    | cons a l ih =>
      intro s r h hr
      obtain ⟨s', h1, h2⟩ := (foldlM_cons_ok _ _ _ _ _).1 hr
      rcases List.mem_cons.1 h with rfl | h
      · have hc : fixedCheck df false e.2 = .error "AssertionError" := by
          simp only [fixedCheck, List.length_take]
          simp; omega
        simp only [fixedStep, fixedSet, fixedAdd, hc] at h1
        split at h1 <;> simp [Except.map, Except.bind] at h1
      · exact ih s' r h h2
  intro r hr
  unfold fixedSense at hr
  split at hr
  · simp at hr
  · obtain ⟨s, h1, _⟩ := (map_ok_iff _ _ _).1 hr
    exact key sd _ _ he h1

/-- Two crafts in `simulate` and in `verify`: the hypotheses of `C91_named_partial` are met, and this is what is shown. -/
example : (fixedSense thermoDef true "a" [("b", ⟨[1, 2, 3], ["ON"], []⟩), ("a", ⟨[4, 5, 6, 7], ["OFF"], ["s"]⟩), ("c", ⟨[7, 8, 9], ["ON"], []⟩)] :
      Except String ((Dict String (Val Nat) × Dict String (Val String)) × Int)) =
    .ok (([("others.temp", .many [1, 7]), ("others.total_time", .many [2, 8]), ("others.cycle_time", .many [3, 9]),
        ("ego.temp", .one 4), ("ego.total_time", .one 5), ("ego.cycle_time", .one 6)],
      [("others.thermo_mode", .many ["ON", "ON"]), ("ego.thermo_mode", .one "OFF")]), 2) := by decide +kernel

/-- **C91 fails** for static parameters: the value of a static parameter is not shown under any name. -/
theorem C91_static_violated : ∃ (sd : Dict String (AgentState Nat String)) (r : (Dict String (Val Nat) × Dict String (Val String)) × Int),
    fixedSense craftDef false "a" sd = .ok r ∧ Dict.get? sd "a" = some ⟨[1, 2, 3, 4, 5, 6], ["M"], ["heavy"]⟩ ∧
    (∀ kv ∈ r.1.2, kv.2 ≠ .one "heavy") := by
  refine ⟨[("a", ⟨[1, 2, 3, 4, 5, 6], ["M"], ["heavy"]⟩)], _, rfl, by rfl, by decide +kernel⟩

/-- **C91 fails** in `simulate` for an agent with too few variables: there is no error, its values are missing from the lists of
the later names, and the same position in two lists is not the same agent. -/
theorem C91_short_violated : (fixedSense thermoDef true "a" [("a", ⟨[4, 5, 6], ["M"], []⟩), ("b", ⟨[1], ["M"], []⟩), ("c", ⟨[7, 8, 9], ["M"], []⟩)] :
      Except String ((Dict String (Val Nat) × Dict String (Val String)) × Int)).map (fun r => (Dict.get? r.1.1 "others.temp", Dict.get? r.1.1 "others.total_time", r.2)) =
    .ok (some (.many [1, 7]), some (.many [8]), 2) := by decide +kernel

/-! ### `SingleSensor` -/

/-- In `simulate`, `SingleSensor` shows what the default sensor shows (C48). -/
theorem C91_single_simulate (ego : String) (args : List Arg) (defs : Dict String Def) (sd : Dict String (AgentState C D)) :
    singleSense true ego args defs sd = sense ego args defs sd := rfl

theorem sets_eq_setsP {V : Type} (d : Dict String (Val V)) (t : String) (ks : List String) (vs : List V) : sets d t ks vs = setsP d t (ks.zip vs) := rfl

/-- The dictionary shows the values of the ego agent and of one other agent, both as plain values, and nothing else. -/
structure ShowsTwo {V : Type} (d : Dict String (Val V)) (own : List (String × V)) (arg : String) (oth : List (String × V)) : Prop where
  ego : ∀ k v, (k, v) ∈ own → Dict.get? d ("ego" ++ "." ++ k) = some (.one v)
  other : ∀ k v, (k, v) ∈ oth → Dict.get? d (arg ++ "." ++ k) = some (.one v)
  only : ∀ key x, Dict.get? d key = some x → (∃ k v, (k, v) ∈ own ∧ key = "ego" ++ "." ++ k) ∨ (∃ k v, (k, v) ∈ oth ∧ key = arg ++ "." ++ k)

theorem setsP_none {V : Type} (t u : String) (ht : '.' ∉ t.toList) (hu : '.' ∉ u.toList) (hne : u ≠ t) (ps : List (String × V)) (hn : (ps.map Prod.fst).Nodup)
    (d : Dict String (Val V)) (k : String) : Dict.get? (setsP d t ps) (u ++ "." ++ k) = Dict.get? d (u ++ "." ++ k) :=
  (setsP_spec t ps d hn).2 _ fun _ _ h => hne (key_thing hu ht h)

theorem showsTwo_of {V : Type} (own other : List (String × V)) (arg : String) (hdot : '.' ∉ arg.toList) (harg : arg ≠ "ego")
    (hn : (own.map Prod.fst).Nodup) (hm : (other.map Prod.fst).Nodup) :
    ShowsTwo (setsP (setsP [] "ego" own) arg other) own arg other ∧ ShowsTwo (setsP (setsP [] arg other) "ego" own) own arg other := by
  have hd : '.' ∉ "ego".toList := by decide
  have only : ∀ (t u : String) (p q : List (String × V)), (p.map Prod.fst).Nodup → (q.map Prod.fst).Nodup → ∀ key x,
      Dict.get? (setsP (setsP [] t p) u q) key = some x → (∃ k v, (k, v) ∈ p ∧ key = t ++ "." ++ k) ∨ (∃ k v, (k, v) ∈ q ∧ key = u ++ "." ++ k) := by
    intro t u p q hp hq key x h
    by_cases h1 : ∀ k ∈ q.map Prod.fst, key ≠ u ++ "." ++ k
    · rw [(setsP_spec u q _ hq).2 key h1] at h
      by_cases h2 : ∀ k ∈ p.map Prod.fst, key ≠ t ++ "." ++ k
      · rw [(setsP_spec t p _ hp).2 key h2] at h
        simp [Dict.get?] at h
      · simp only [not_forall, not_not] at h2
        obtain ⟨k, hk, e⟩ := h2
        obtain ⟨⟨k', v⟩, hm, rfl⟩ := List.mem_map.1 hk
        exact .inl ⟨k', v, hm, e⟩
    · simp only [not_forall, not_not] at h1
      obtain ⟨k, hk, e⟩ := h1
      obtain ⟨⟨k', v⟩, hm, rfl⟩ := List.mem_map.1 hk
      exact .inr ⟨k', v, hm, e⟩
  refine ⟨⟨?_, ?_, only _ _ _ _ hn hm⟩, ⟨?_, ?_, fun key x h => (only _ _ _ _ hm hn key x h).symm⟩⟩
  · intro k v h
    rw [setsP_none arg "ego" hdot hd (Ne.symm harg) _ hm]
    exact (setsP_spec "ego" own _ hn).1 k v h
  · intro k v h
    exact (setsP_spec arg other _ hm).1 k v h
  · intro k v h
    exact (setsP_spec "ego" own _ hn).1 k v h
  · intro k v h
    rw [setsP_none "ego" arg hd hdot harg _ hn]
    exact (setsP_spec arg other _ hm).1 k v h

/-- **C91** (partial: two agents). In `verify`, `SingleSensor` shows the values of the ego agent and, as plain values and not as
lists, those of the other agent, and nothing else; the reported number of others is 1. -/
theorem C91_single_partial (ego oth : String) (args : List Arg) (defs : Dict String Def) (sd : Dict String (AgentState C D)) (se so : AgentState C D)
    (te : String) (de : Def) (a : Arg) (t : String) (df : Def) (hne : oth ≠ ego) (hsd : sd = [(ego, se), (oth, so)] ∨ sd = [(oth, so), (ego, se)])
    (hte : egoType args = some te) (hde : Dict.get? defs te = some de) (hfe : Fits de se) (hec : de.cont.Nodup) (hed : (de.disc ++ de.static).Nodup)
    (ha : otherArg args = some a) (ht : a.typ = some t) (hdf : Dict.get? defs t = some df) (hdot : '.' ∉ a.name.toList)
    (hfo : Fits df so) (hnc : df.cont.Nodup) (hnd : (df.disc ++ df.static).Nodup) :
    ∃ cont disc, singleSense false ego args defs sd = .ok ((cont, disc), 1) ∧
      ShowsTwo cont (contPairs de se) a.name (contPairs df so) ∧ ShowsTwo disc (discPairs de se) a.name (discPairs df so) := by
  have harg : a.name ≠ "ego" := by
    have := List.find?_some ha
    simp only [Bool.and_eq_true, decide_eq_true_eq] at this
    exact this.1
  have c := showsTwo_of (contPairs de se) (contPairs df so) a.name hdot harg (by rw [keys_cont hfe]; exact hec) (by rw [keys_cont hfo]; exact hnc)
  have d := showsTwo_of (discPairs de se) (discPairs df so) a.name hdot harg (by rw [keys_disc hfe]; exact hed) (by rw [keys_disc hfo]; exact hnd)
  have he : ∀ st, singleStep ego args defs st (ego, se) = .ok (setsP st.1 "ego" (contPairs de se), setsP st.2 "ego" (discPairs de se)) := fun st => by
    simp only [singleStep, singleEgo, hte, hde, setStates_eq, if_true]
  have ho : ∀ st, singleStep ego args defs st (oth, so) = .ok (setsP st.1 a.name (contPairs df so), setsP st.2 a.name (discPairs df so)) := fun st => by
    simp only [singleStep, singleOther, ha, ht, hdf, setStates_eq, if_neg hne]
  rcases hsd with rfl | rfl
  · refine ⟨_, _, ?_, c.1, d.1⟩
    simp only [singleSense, Bool.false_eq_true, if_false, List.foldlM_cons, he, List.foldlM_nil]
    simp only [bind, Except.bind, ho]
    rfl
  · refine ⟨_, _, ?_, c.2, d.2⟩
    simp only [singleSense, Bool.false_eq_true, if_false, List.foldlM_cons, ho, List.foldlM_nil]
    simp only [bind, Except.bind, he]
    rfl

/-- **C91 fails** for `SingleSensor` in `verify` with more than two agents: only the last one is shown, as a plain value, while
two others are reported; `simulate` shows the list of both. -/
theorem C91_single_violated :
    let args : List Arg := [⟨"ego", some "S"⟩, ⟨"others", some "S"⟩]
    let defs : Dict String Def := [("S", ⟨["x"], ["m"], []⟩)]
    let sd : Dict String (AgentState Nat String) := [("a", ⟨[4], ["A"], []⟩), ("b", ⟨[1], ["B"], []⟩), ("c", ⟨[7], ["C"], []⟩)]
    (singleSense false "a" args defs sd).map (fun r => (Dict.get? r.1.1 "others.x", Dict.get? r.1.2 "others.m", r.2)) = .ok (some (.one 7), some (.one "C"), 2) ∧
    (singleSense true "a" args defs sd).map (fun r => (Dict.get? r.1.1 "others.x", Dict.get? r.1.2 "others.m", r.2)) = .ok (some (.many [1, 7]), some (.many ["B", "C"]), 2) := by
  decide +kernel

/-- Two agents meet the hypotheses of `C91_single_partial`; this is what is shown. -/
example : (singleSense false "a" [⟨"ego", some "S"⟩, ⟨"others", some "S"⟩] [("S", ⟨["x"], ["m"], ["s"]⟩)]
      [("b", ⟨[1], ["B"], ["p"]⟩), ("a", ⟨[4], ["A"], ["q"]⟩)] : Except String ((Dict String (Val Nat) × Dict String (Val String)) × Int)) =
    .ok (([("others.x", .one 1), ("ego.x", .one 4)], [("others.m", .one "B"), ("others.s", .one "p"), ("ego.m", .one "A"), ("ego.s", .one "q")]), 1) := by
  decide +kernel

/-- **C91 fails** for `CraftStarSensor` in `simulate`: every variable of the ego agent is given the value of the first one. -/
theorem C91_star_violated (ego : String) (c : C) (cs : List C) (m : List D) (s : List D) :
    ∃ r, starSense ego [(ego, ⟨c :: cs, m, s⟩)] = .ok r ∧ ∀ k ∈ ["xp", "yp", "xd", "yd", "total_time", "cycle_time"],
      Dict.get? r.1.1 ("ego" ++ "." ++ k) = some (.one c) := by
  refine ⟨((sets [] "ego" craftDef.cont (craftDef.cont.map fun _ => c), sets [] "ego" craftDef.disc m), 0), ?_, ?_⟩
  · simp [starSense, starSet, Except.map, List.foldlM_cons, List.foldlM_nil, bind, Except.bind, pure, Except.pure]
  · intro k hk
    rw [sets_eq_setsP]
    refine (setsP_spec "ego" _ _ (by rw [keys_zip _ _ (by simp)]; decide +kernel)).1 k c ?_
    simp only [craftDef, List.map_cons, List.map_nil, List.zip_cons_cons, List.zip_nil_right]
    simp only [List.mem_cons, List.not_mem_nil, or_false] at hk ⊢
    rcases hk with rfl | rfl | rfl | rfl | rfl | rfl <;> simp

end Verif.Props
