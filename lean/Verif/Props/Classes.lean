import Verif.Proofs.Classes
import Verif.Props.Sensor

/-!
C113: the variables and modes of agents are those that the classes of the file declare.
-/

set_option autoImplicit false

namespace Verif.Props
open Verif Verif.Classes Verif.Classes.Spec

private theorem not_mode {name : String} (h : "State".toList <:+ name.toList) : ¬ "Mode".toList <:+ name.toList := by
  rintro ⟨b, hb⟩
  obtain ⟨a, ha⟩ := h
  rw [← ha] at hb
  have h1 : (a ++ "State".toList).reverse.take 2 = "et".toList := by simp
  have h2 : (b ++ "Mode".toList).reverse.take 2 = "ed".toList := by simp
  rw [hb, h1] at h2
  exact absurd h2 (by decide)

/-- What a statement other than `__main__` does. -/
private theorem proc_next {s : Stmt} (hs : s ≠ .main) {d : Defs} {r : Defs × Bool} (h : proc s d = .ok r) : r.2 = false ∧
    ((∃ name bases body, s = .cls name bases body ∧ procClass name body d = .ok r.1) ∨ ((∀ name bases body, s ≠ .cls name bases body) ∧ r.1 = d)) := by
  cases s with
  | cls name bases body =>
    rw [proc] at h
    obtain ⟨d', hd, rfl⟩ := (map_ok_iff _ _ _).1 h
    exact ⟨rfl, Or.inl ⟨name, bases, body, rfl, hd⟩⟩
  | main => exact absurd rfl hs
  | cond b o =>
    rw [proc] at h
    obtain ⟨_, _, h⟩ := (bind_ok_iff _ _ _).1 h
    obtain ⟨_, _, rfl⟩ := (map_ok_iff _ _ _).1 h
    exact ⟨rfl, Or.inr ⟨by simp, rfl⟩⟩
  | plain => rw [proc] at h; injection h with h; subst h; exact ⟨rfl, Or.inr ⟨by simp, rfl⟩⟩
  | bad => rw [proc] at h; exact absurd h (by simp)

private theorem procClass_states {name : String} {body : List Member} {d d' : Defs} (h : procClass name body d = .ok d') (n : String) :
    ("State".toList <:+ name.toList → n = name → ∃ s, stateDef body = .ok s ∧ Dict.get? d'.states n = some s) ∧
    (¬ ("State".toList <:+ name.toList ∧ n = name) → Dict.get? d'.states n = Dict.get? d.states n) ∧
    ("Mode".toList <:+ name.toList → n = name → ∃ ms, grabNames body = .ok ms ∧ Dict.get? d'.modes n = some ms) ∧
    (¬ ("Mode".toList <:+ name.toList ∧ n = name) → Dict.get? d'.modes n = Dict.get? d.modes n) := by
  unfold procClass at h
  by_cases hm : "Mode".toList <:+ name.toList
  · rw [if_pos hm] at h
    obtain ⟨ms, hg, rfl⟩ := (map_ok_iff _ _ _).1 h
    refine ⟨fun h' => absurd hm (not_mode h'), fun _ => rfl, fun _ e => ⟨ms, hg, by rw [e]; exact Dict.get?_set_self _ _ _⟩, fun hn => ?_⟩
    exact Dict.get?_set_ne _ _ _ _ (fun e => hn ⟨hm, by simp [e]⟩)
  · rw [if_neg hm] at h
    by_cases hs : "State".toList <:+ name.toList
    · rw [if_pos hs] at h
      obtain ⟨s, hg, rfl⟩ := (map_ok_iff _ _ _).1 h
      refine ⟨fun _ e => ⟨s, hg, by rw [e]; exact Dict.get?_set_self _ _ _⟩, fun hn => ?_, fun h' => absurd h' hm, fun _ => rfl⟩
      exact Dict.get?_set_ne _ _ _ _ (fun e => hn ⟨hs, by simp [e]⟩)
    · rw [if_neg hs] at h
      injection h with h
      subst h
      exact ⟨fun h' => absurd h' hs, fun _ => rfl, fun h' => absurd h' hm, fun _ => rfl⟩

/-- The definitions after the statements of a file. -/
private theorem module_spec {file l : List Stmt} (hb : Before file l) : ∀ {d d' : Defs}, procModule file d = .ok d' → ∀ n,
    ("State".toList <:+ n.toList → (∀ body, Last l n body → ∃ s, stateDef body = .ok s ∧ Dict.get? d'.states n = some s)) ∧
    ("Mode".toList <:+ n.toList → (∀ body, Last l n body → ∃ ms, grabNames body = .ok ms ∧ Dict.get? d'.modes n = some ms)) ∧
    (¬ "State".toList <:+ n.toList ∨ (∀ b y, .cls n b y ∉ l) → Dict.get? d'.states n = Dict.get? d.states n) ∧
    (¬ "Mode".toList <:+ n.toList ∨ (∀ b y, .cls n b y ∉ l) → Dict.get? d'.modes n = Dict.get? d.modes n) := by
  have nolast : ∀ {n : String} {body : List Member}, ¬ Last [] n body := by
    rintro n body ⟨pre, b, post, h, -⟩
    exact absurd h (by simp)
  induction hb with
  | nil =>
    intro d d' h n
    rw [procModule] at h
    injection h with h
    subst h
    exact ⟨fun _ _ h => absurd h nolast, fun _ _ h => absurd h nolast, fun _ => rfl, fun _ => rfl⟩
  | main =>
    intro d d' h n
    rw [procModule, proc] at h
    simp only [Except.bind, if_true] at h
    injection h with h
    subst h
    exact ⟨fun _ _ h => absurd h nolast, fun _ _ h => absurd h nolast, fun _ => rfl, fun _ => rfl⟩
  | @next s l m hs _ ih =>
    intro d d' h n
    rw [procModule] at h
    obtain ⟨r, hr, h⟩ := (bind_ok_iff _ _ _).1 h
    obtain ⟨r2, hr⟩ := proc_next hs hr
    rw [r2] at h
    simp only [Bool.false_eq_true, if_false] at h
    obtain ⟨i1, i2, i3, i4⟩ := ih h n
    -- the last class of the name: in the rest, or this one
    have hlast : ∀ body, Last (s :: m) n body → Last m n body ∨ ((∃ b, s = .cls n b body) ∧ ∀ b y, .cls n b y ∉ m) := by
      rintro body ⟨pre, b, post, e, hp⟩
      cases pre with
      | nil =>
        rw [List.nil_append] at e
        injection e with e1 e2
        subst e2
        exact Or.inr ⟨⟨b, e1⟩, hp⟩
      | cons p pre =>
        rw [List.cons_append] at e
        injection e with e1 e2
        exact Or.inl ⟨pre, b, post, e2, hp⟩
    refine ⟨fun hn body hl => ?_, fun hn body hl => ?_, fun hn => ?_, fun hn => ?_⟩
    · rcases hlast body hl with hl | ⟨⟨b, rfl⟩, hno⟩
      · exact i1 hn body hl
      · rcases hr with ⟨name, bases, body', e, hc⟩ | ⟨hno', _⟩
        · injection e with e1 e2 e3
          subst e1 e2 e3
          obtain ⟨sd, h1, h2⟩ := (procClass_states hc n).1 hn rfl
          exact ⟨sd, h1, by rw [i3 (Or.inr hno)]; exact h2⟩
        · exact absurd rfl (hno' _ _ _)
    · rcases hlast body hl with hl | ⟨⟨b, rfl⟩, hno⟩
      · exact i2 hn body hl
      · rcases hr with ⟨name, bases, body', e, hc⟩ | ⟨hno', _⟩
        · injection e with e1 e2 e3
          subst e1 e2 e3
          obtain ⟨sd, h1, h2⟩ := (procClass_states hc n).2.2.1 hn rfl
          exact ⟨sd, h1, by rw [i4 (Or.inr hno)]; exact h2⟩
        · exact absurd rfl (hno' _ _ _)
    · rw [i3 (hn.imp_right fun hn b y hm => hn b y (List.mem_cons_of_mem _ hm))]
      rcases hr with ⟨name, bases, body', rfl, hc⟩ | ⟨_, e⟩
      · refine (procClass_states hc n).2.1 ?_
        rintro ⟨g1, rfl⟩
        rcases hn with hn | hn
        · exact hn g1
        · exact hn _ _ List.mem_cons_self
      · rw [e]
    · rw [i4 (hn.imp_right fun hn b y hm => hn b y (List.mem_cons_of_mem _ hm))]
      rcases hr with ⟨name, bases, body', rfl, hc⟩ | ⟨_, e⟩
      · refine (procClass_states hc n).2.2.2 ?_
        rintro ⟨g1, rfl⟩
        rcases hn with hn | hn
        · exact hn g1
        · exact hn _ _ List.mem_cons_self
      · rw [e]

/-- There is a last class of a name if there is one. -/
private theorem last_exists {l : List Stmt} {n : String} (h : ∃ b y, .cls n b y ∈ l) : ∃ body, Last l n body := by
  induction l with
  | nil => obtain ⟨b, y, h⟩ := h; exact absurd h (by simp)
  | cons s l ih =>
    by_cases hl : ∃ b y, .cls n b y ∈ l
    · obtain ⟨body, pre, b, post, rfl, hp⟩ := ih hl
      exact ⟨body, s :: pre, b, post, rfl, hp⟩
    · obtain ⟨b, y, h⟩ := h
      rcases List.mem_cons.1 h with rfl | h
      · exact ⟨y, [], b, l, rfl, fun b y hm => hl ⟨b, y, hm⟩⟩
      · exact absurd ⟨b, y, h⟩ hl

/-- The state definitions of a file are those of its classes whose names end in `State`, the last one of each name: continuous, discrete and static variables with
the types of the latter two, in the order of their declarations. Classes inside of `if` and inherited variables are missing (`C113_if_violated`,
`C113_inherit_violated`), and the kind depends on the name only (`C113_float_violated`). -/
theorem C113_states_partial {file l : List Stmt} (hb : Before file l) {d : Defs} (h : parse file = .ok d) (name : String) (sd : StateDef) :
    Dict.get? d.states name = some sd ↔ "State".toList <:+ name.toList ∧ ∃ body ps c e s, Last l name body ∧ (∀ m ∈ body, Simple m ∧ Typed m) ∧ Vars body ps ∧
      Of .cont ps c ∧ Of .disc ps e ∧ Of .static ps s ∧
      sd.cont = c.map Prod.fst ∧ sd.disc = e.map Prod.fst ∧ sd.discType = e.map Prod.snd ∧ sd.static = s.map Prod.fst ∧ sd.staticType = s.map Prod.snd := by
  obtain ⟨h1, -, h3, -⟩ := module_spec hb h name
  constructor
  · intro hg
    by_cases hn : "State".toList <:+ name.toList
    · by_cases hex : ∃ b y, .cls name b y ∈ l
      · obtain ⟨body, hl⟩ := last_exists hex
        obtain ⟨sd', g1, g2⟩ := h1 hn body hl
        rw [hg] at g2
        injection g2 with g2
        subst g2
        obtain ⟨hst, ps, c, e, s, hv, hc, he, hs, rfl⟩ := (stateDef_iff _ _).1 g1
        exact ⟨hn, body, ps, c, e, s, hl, hst, hv, hc, he, hs, rfl, rfl, rfl, rfl, rfl⟩
      · rw [h3 (Or.inr fun b y hm => hex ⟨b, y, hm⟩)] at hg
        exact absurd hg (by simp [Dict.get?])
    · rw [h3 (Or.inl hn)] at hg
      exact absurd hg (by simp [Dict.get?])
  · rintro ⟨hn, body, ps, c, e, s, hl, hst, hv, hc, he, hs, e1, e2, e3, e4, e5⟩
    obtain ⟨sd', g1, g2⟩ := h1 hn body hl
    obtain ⟨_, ps', c', e', s', hv', hc', he', hs', rfl⟩ := (stateDef_iff _ _).1 g1
    obtain rfl := vars_unique hv hv'
    obtain rfl := of_unique hc hc'
    obtain rfl := of_unique he he'
    obtain rfl := of_unique hs hs'
    rw [g2, ← e1, ← e2, ← e3, ← e4, ← e5]

/-- The modes are the names that the last class of the name assigns or annotates, in order. -/
theorem C113_modes_partial {file l : List Stmt} (hb : Before file l) {d : Defs} (h : parse file = .ok d) (name : String) (ms : List String) :
    Dict.get? d.modes name = some ms ↔ "Mode".toList <:+ name.toList ∧ ∃ body ps, Last l name body ∧ (∀ m ∈ body, Simple m) ∧ Vars body ps ∧ ms = ps.map Prod.fst := by
  obtain ⟨-, h1, -, h3⟩ := module_spec hb h name
  constructor
  · intro hg
    by_cases hn : "Mode".toList <:+ name.toList
    · by_cases hex : ∃ b y, .cls name b y ∈ l
      · obtain ⟨body, hl⟩ := last_exists hex
        obtain ⟨sd', g1, g2⟩ := h1 hn body hl
        rw [hg] at g2
        injection g2 with g2
        subst g2
        obtain ⟨hst, ps, hv, rfl⟩ := (grabNames_iff _ _).1 g1
        exact ⟨hn, body, ps, hl, hst, hv, rfl⟩
      · rw [h3 (Or.inr fun b y hm => hex ⟨b, y, hm⟩)] at hg
        exact absurd hg (by simp [Dict.get?])
    · rw [h3 (Or.inl hn)] at hg
      exact absurd hg (by simp [Dict.get?])
  · rintro ⟨hn, body, ps, hl, hst, hv, rfl⟩
    obtain ⟨ms, g1, g2⟩ := h1 hn body hl
    obtain ⟨_, ps', hv', rfl⟩ := (grabNames_iff _ _).1 g1
    rw [vars_unique hv hv']
    exact g2

/-- No variable is lost or invented: the three lists together are the declared names, up to order. -/
theorem C113_once {ps c e s : List (String × Option String)} (hc : Of .cont ps c) (he : Of .disc ps e) (hs : Of .static ps s) : (c ++ e ++ s).Perm ps := by
  induction ps generalizing c e s with
  | nil => cases hc; cases he; cases hs; exact .refl _
  | cons p ps ih =>
    by_cases ht : p.1 = "type"
    · cases hs with
      | drop hk _ => exact absurd ht hk
      | take _ hs =>
        cases hc with
        | take hk _ => exact absurd ht hk.1
        | drop _ hc =>
          cases he with
          | take hk _ => exact absurd ht hk.1
          | drop _ he => exact List.perm_middle.trans ((ih hc he hs).cons p)
    · cases hs with
      | take hk _ => exact absurd hk ht
      | drop _ hs =>
        by_cases hm : "mode".toList <:+: p.1.toList
        · cases hc with
          | take hk _ => exact absurd hm hk.2
          | drop _ hc =>
            cases he with
            | drop hk _ => exact absurd ⟨ht, hm⟩ hk
            | take _ he =>
              rw [List.append_assoc, List.cons_append]
              exact List.perm_middle.trans (by rw [← List.append_assoc]; exact (ih hc he hs).cons p)
        · cases hc with
          | drop hk _ => exact absurd ⟨ht, hm⟩ hk
          | take _ hc =>
            cases he with
            | take hk _ => exact absurd hk.2 hm
            | drop _ he => exact (ih hc he hs).cons p

/-- What the sensor gives to the decision logic of an agent: the i-th value of its state is the i-th declared continuous variable, its i-th mode the i-th declared
discrete variable. For other agents the values of each continuous variable are listed. (Both classes are read from the file; the variables of a class have
different names, and the states have one value for each.) -/
theorem C113_sensed_partial {C D : Type} {file l : List Stmt} (hb : Before file l) {d : Defs} (h : parse file = .ok d)
    (ego : String) (args : List Sns.Arg) (sd : Dict String (Sns.AgentState C D)) (se : Sns.AgentState C D) (a : Sns.Arg) (te t : String)
    {be bo : List Member} {pe ce de pse po co dq so : List (String × Option String)}
    (hte : Sns.egoType args = some te) (hse : "State".toList <:+ te.toList) (hle : Last l te be) (hve : Vars be pe) (hne : (pe.map Prod.fst).Nodup)
    (hce : Of .cont pe ce) (hde : Of .disc pe de) (hste : Of .static pe pse)
    (ha : Sns.otherArg args = some a) (ht : a.typ = some t) (hso : "State".toList <:+ t.toList) (hlo : Last l t bo) (hvo : Vars bo po) (hno : (po.map Prod.fst).Nodup)
    (hco : Of .cont po co) (hdo : Of .disc po dq) (hsto : Of .static po so)
    (hdot : '.' ∉ a.name.toList) (hids : (sd.map Prod.fst).Nodup) (hego : (ego, se) ∈ sd)
    (hfe : se.cont.length = ce.length ∧ se.mode.length = de.length ∧ se.static.length = pse.length)
    (hfo : ∀ o ∈ sd, o.1 ≠ ego → o.2.cont.length = co.length ∧ o.2.mode.length = dq.length ∧ o.2.static.length = so.length) :
    ∃ cont disc n, Sns.sense ego args (d.states.map fun e => (e.1, e.2.toDef)) sd = .ok ((cont, disc), n) ∧
      (∀ (i : Nat) (x : String × Option String) (v : C), ce[i]? = some x → se.cont[i]? = some v → Dict.get? cont ("ego" ++ "." ++ x.1) = some (.one v)) ∧
      (∀ (i : Nat) (x : String × Option String) (v : D), de[i]? = some x → se.mode[i]? = some v → Dict.get? disc ("ego" ++ "." ++ x.1) = some (.one v)) ∧
      ((∃ o ∈ sd, o.1 ≠ ego) → ∀ (i : Nat) (x : String × Option String), co[i]? = some x → ∃ vs, Dict.get? cont (a.name ++ "." ++ x.1) = some (.many vs) ∧
        List.Forall₂ (fun o v => o.2.cont[i]? = some v) (sd.filter fun o => decide (o.1 ≠ ego)) vs) := by
  have known : ∀ {n : String} {body : List Member} {ps c e s : List (String × Option String)}, "State".toList <:+ n.toList → Last l n body → Vars body ps → Of .cont ps c →
      Of .disc ps e → Of .static ps s → ∃ s' : StateDef, Dict.get? d.states n = some s' ∧ s'.toDef = ⟨c.map Prod.fst, e.map Prod.fst, s.map Prod.fst⟩ := by
    intro n body ps c e s hn hl hv hc he hs
    obtain ⟨s', g1, g2⟩ := (module_spec hb h n).1 hn body hl
    obtain ⟨_, ps', c', e', s'', hv', hc', he', hs', rfl⟩ := (stateDef_iff _ _).1 g1
    obtain rfl := vars_unique hv hv'
    obtain rfl := of_unique hc hc'
    obtain rfl := of_unique he he'
    obtain rfl := of_unique hs hs'
    exact ⟨_, g2, rfl⟩
  have nodups : ∀ {ps c e s : List (String × Option String)}, (ps.map Prod.fst).Nodup → Of .cont ps c → Of .disc ps e → Of .static ps s →
      (c.map Prod.fst).Nodup ∧ (e.map Prod.fst ++ s.map Prod.fst).Nodup := by
    intro ps c e s hn hc he hs
    have hp := ((C113_once hc he hs).map Prod.fst).nodup_iff.2 hn
    rw [List.append_assoc, List.map_append, List.map_append] at hp
    exact ⟨hp.of_append_left, hp.of_append_right⟩
  obtain ⟨s1, g1, e1⟩ := known hse hle hve hce hde hste
  obtain ⟨s2, g2, e2⟩ := known hso hlo hvo hco hdo hsto
  obtain ⟨n1, n2⟩ := nodups hne hce hde hste
  obtain ⟨m1, m2⟩ := nodups hno hco hdo hsto
  have hg : ∀ {n : String} {s' : StateDef}, Dict.get? d.states n = some s' → Dict.get? (d.states.map fun e => (e.1, e.2.toDef)) n = some s'.toDef := by
    intro n s' hs'
    rw [Dict.get?_mapVals, hs']
    rfl
  obtain ⟨cont, disc, hr, hc, hd⟩ := C48_sense_partial ego args (d.states.map fun e => (e.1, e.2.toDef)) sd se te _ a t _ hids hego hte (hg g1)
    (by rw [e1]; exact ⟨by simpa using hfe.1, by simpa using hfe.2.1, by simpa using hfe.2.2⟩) (by rw [e1]; exact n1) (by rw [e1]; exact n2) ha ht (hg g2) hdot
    (by rw [e2]; exact m1) (by rw [e2]; exact m2)
    (fun o ho hne => by rw [e2]; exact ⟨by simpa using (hfo o ho hne).1, by simpa using (hfo o ho hne).2.1, by simpa using (hfo o ho hne).2.2⟩)
  refine ⟨cont, disc, _, hr, fun i x v hx hv => hc.ego _ _ ?_, fun i x v hx hv => hd.ego _ _ ?_, ?_⟩
  · rw [e1]
    exact List.mem_of_getElem? (i := i) (by rw [Sns.contPairs, List.getElem?_zip_eq_some]; exact ⟨by simp [hx], hv⟩)
  · rw [e1]
    exact List.mem_append_left _ (List.mem_of_getElem? (i := i) (by rw [List.getElem?_zip_eq_some]; exact ⟨by simp [hx], hv⟩))
  · rintro ⟨o, ho, hone⟩ i x hx
    have hmem : o ∈ sd.filter fun o => decide (o.1 ≠ ego) := List.mem_filter.2 ⟨ho, by simpa using hone⟩
    obtain ⟨vs, h1, h2⟩ := hc.lists (fun e => by rw [List.map_eq_nil_iff] at e; rw [e] at hmem; exact absurd hmem (by simp)) x.1 (by
      rw [e2]; exact List.mem_map_of_mem (List.mem_of_getElem? hx))
    refine ⟨vs, h1, ?_⟩
    rw [List.forall₂_map_left_iff] at h2
    refine List.Forall₂.imp ?_ h2
    intro q v hq
    rw [e2] at hq
    obtain ⟨j, hj⟩ := List.mem_iff_getElem?.1 hq
    rw [Sns.contPairs, List.getElem?_zip_eq_some] at hj
    have hji : j = i := by
      have hx' : (co.map Prod.fst)[i]? = some x.1 := by simp [hx]
      obtain ⟨b1, b2⟩ := List.getElem?_eq_some_iff.1 hj.1
      obtain ⟨c1, c2⟩ := List.getElem?_eq_some_iff.1 hx'
      exact (List.Nodup.getElem_inj_iff m1 (hi := b1) (hj := c1)).1 (b2.trans c2.symm)
    rw [hji] at hj
    exact hj.2

/-! ### Examples and violations -/

namespace ClassesEx

/-- a file with modes, states and a part for `__main__` -/
def file : List Stmt := [.plain,
  .cls "CraftMode" ["Enum"] [.assign (.name "Normal") false, .assign (.name "Up") false],
  .cls "State" [] [.ann (.name "x") (some "float") false, .assign (.name "y") false, .ann (.name "craft_mode") (some "CraftMode") false, .ann (.name "v") (some "float") false,
    .ann (.name "type") (some "AgentType") true, .other],
  .plain, .main, .cls "LaterState" [] [.assign (.name "z") false]]

/-- its definitions -/
def defs : Defs := ⟨[("State", ⟨["x", "y", "v"], ["craft_mode"], [some "CraftMode"], ["type"], [some "AgentType"]⟩)], [("CraftMode", ["Normal", "Up"])]⟩

theorem run : parse file = .ok defs := by decide +kernel

theorem before : Before file (file.take 4) := .next (by simp) (.next (by simp) (.next (by simp) (.next (by simp) .main)))

/-- two agents -/
def agents : Dict String (Sns.AgentState ℚ String) := [("a", ⟨[1, 2, 3], ["Normal"], ["T"]⟩), ("b", ⟨[4, 5, 6], ["Up"], ["T"]⟩)]

end ClassesEx

/-- the hypotheses of `C113_sensed_partial` hold for this file and these agents: `b` sees its own `v` and the values of `y` -/
example : ∃ cont disc n, Sns.sense "b" [⟨"ego", some "State"⟩, ⟨"others", some "State"⟩] (ClassesEx.defs.states.map fun e => (e.1, e.2.toDef)) ClassesEx.agents =
    .ok ((cont, disc), n) ∧ Dict.get? cont "ego.v" = some (.one 6) ∧ Dict.get? disc "ego.craft_mode" = some (.one "Up") ∧ Dict.get? cont "others.y" = some (.many [2]) := by
  have hl : Last (ClassesEx.file.take 4) "State" [.ann (.name "x") (some "float") false, .assign (.name "y") false, .ann (.name "craft_mode") (some "CraftMode") false,
      .ann (.name "v") (some "float") false, .ann (.name "type") (some "AgentType") true, .other] :=
    ⟨[.plain, .cls "CraftMode" ["Enum"] [.assign (.name "Normal") false, .assign (.name "Up") false]], [], [.plain], rfl, by simp⟩
  have hv : Vars [.ann (.name "x") (some "float") false, .assign (.name "y") false, .ann (.name "craft_mode") (some "CraftMode") false,
      .ann (.name "v") (some "float") false, .ann (.name "type") (some "AgentType") true, .other]
      [("x", some "float"), ("y", none), ("craft_mode", some "CraftMode"), ("v", some "float"), ("type", some "AgentType")] :=
    .var ⟨rfl, rfl⟩ (.var ⟨rfl, rfl⟩ (.var ⟨rfl, rfl⟩ (.var ⟨rfl, rfl⟩ (.var ⟨rfl, rfl⟩ (.skip .nil)))))
  have k1 : ¬ "mode".toList <:+: "x".toList := by decide
  have k2 : ¬ "mode".toList <:+: "y".toList := by decide
  have k3 : "mode".toList <:+: "craft_mode".toList := by decide
  have k4 : ¬ "mode".toList <:+: "v".toList := by decide
  have hc : Of .cont [("x", some "float"), ("y", none), ("craft_mode", some "CraftMode"), ("v", some "float"), ("type", some "AgentType")]
      [("x", some "float"), ("y", none), ("v", some "float")] :=
    .take ⟨by decide, k1⟩ (.take ⟨by decide, k2⟩ (.drop (fun h => h.2 k3) (.take ⟨by decide, k4⟩ (.drop (fun h => h.1 rfl) .nil))))
  have hd : Of .disc [("x", some "float"), ("y", none), ("craft_mode", some "CraftMode"), ("v", some "float"), ("type", some "AgentType")] [("craft_mode", some "CraftMode")] :=
    .drop (fun h => k1 h.2) (.drop (fun h => k2 h.2) (.take ⟨by decide, k3⟩ (.drop (fun h => k4 h.2) (.drop (fun h => h.1 rfl) .nil))))
  have hs : Of .static [("x", some "float"), ("y", none), ("craft_mode", some "CraftMode"), ("v", some "float"), ("type", some "AgentType")] [("type", some "AgentType")] :=
    .drop (show ¬ "x" = "type" by decide) (.drop (show ¬ "y" = "type" by decide) (.drop (show ¬ "craft_mode" = "type" by decide) (.drop (show ¬ "v" = "type" by decide)
      (.take rfl .nil))))
  obtain ⟨cont, disc, n, h1, h2, h3, h4⟩ := C113_sensed_partial ClassesEx.before ClassesEx.run "b" [⟨"ego", some "State"⟩, ⟨"others", some "State"⟩] ClassesEx.agents
    ⟨[4, 5, 6], ["Up"], ["T"]⟩ ⟨"others", some "State"⟩ "State" "State" (by decide) (by decide) hl hv (by decide) hc hd hs (by decide) rfl (by decide) hl hv (by decide) hc hd hs
    (by decide) (by decide) (List.mem_cons_of_mem _ (List.mem_singleton.2 rfl)) ⟨rfl, rfl, rfl⟩ (by
      intro o ho _
      simp only [ClassesEx.agents, List.mem_cons, List.not_mem_nil, or_false] at ho
      rcases ho with rfl | rfl <;> exact ⟨rfl, rfl, rfl⟩)
  refine ⟨cont, disc, n, h1, h2 2 _ _ rfl rfl, h3 0 _ _ rfl rfl, ?_⟩
  obtain ⟨vs, g1, g2⟩ := h4 ⟨("a", ⟨[1, 2, 3], ["Normal"], ["T"]⟩), List.mem_cons_self, by decide⟩ 1 _ rfl
  rw [show ("others.y" : String) = "others" ++ "." ++ "y" by decide, g1]
  have hf : ClassesEx.agents.filter (fun o => decide (o.1 ≠ "b")) = [("a", ⟨[1, 2, 3], ["Normal"], ["T"]⟩)] := rfl
  rw [hf] at g2
  cases g2 with
  | cons hv hr =>
    cases hr
    injection hv with hv
    rw [← hv]

/-- **C113 fails** for classes inside of `if`: they are read, as a wrong one raises, and forgotten. -/
theorem C113_if_violated : parse [.cond [.cls "CarState" [] [.ann (.name "x") (some "float") false]] [.cls "CarState" [] [.ann (.name "y") (some "float") false]]] = .ok {} ∧
    parse [.cond [.cls "CarState" [] [.assign .other false]] []] = .error "NotImplementedError" := by decide +kernel

/-- **C113 fails** for inherited variables, as of `class CarState(BaseState)`. -/
theorem C113_inherit_violated : (parse [.cls "BaseState" [] [.ann (.name "x") (some "float") false, .ann (.name "y") (some "float") false],
    .cls "CarState" ["BaseState"] [.ann (.name "v") (some "float") false]]).map (fun d => (Dict.get? d.states "CarState").map StateDef.allVars) = .ok (some ["v"]) := by decide +kernel

/-- **C113 fails** for continuous variables with `mode` in their names: the variable `modem_load: float` is discrete. -/
theorem C113_float_violated : (parse [.cls "State" [] [.ann (.name "modem_load") (some "float") false, .ann (.name "x") (some "float") false]]).map
    (fun d => (Dict.get? d.states "State").map fun s => (s.cont, s.disc)) = .ok (some (["x"], ["modem_load"])) := by decide +kernel

/-- **C113 fails** for variables that are declared twice: they are two variables. -/
theorem C113_twice_violated : (parse [.cls "State" [] [.ann (.name "x") (some "float") false, .assign (.name "x") false, .ann (.name "v") (some "float") false]]).map
    (fun d => (Dict.get? d.states "State").map StateDef.cont) = .ok (some ["x", "x", "v"]) := by decide +kernel

/-- **C113 fails** for annotations that are not names, such as `x: "float"` or `x: np.float64`: the file is rejected, whatever the variable. -/
theorem C113_annotation_violated (name x : String) (bases : List String) (v : Bool) (hn : "State".toList <:+ name.toList) (rest : List Stmt) (pre post : List Member) :
    ∃ e, parse (.cls name bases (pre ++ .ann (.name x) none v :: post) :: rest) = .error e := by
  cases hp : parse (.cls name bases (pre ++ .ann (.name x) none v :: post) :: rest) with
  | error e => exact ⟨e, rfl⟩
  | ok d =>
    unfold parse at hp
    rw [procModule] at hp
    obtain ⟨r, hr, hp⟩ := (bind_ok_iff _ _ _).1 hp
    rw [proc] at hr
    obtain ⟨d', hd, rfl⟩ := (map_ok_iff _ _ _).1 hr
    obtain ⟨s, hs, _⟩ := (procClass_states hd name).1 hn rfl
    obtain ⟨hst, _⟩ := (stateDef_iff _ _).1 hs
    obtain ⟨_, y, hy⟩ := hst (.ann (.name x) none v) (List.mem_append_right _ List.mem_cons_self)
    exact absurd hy (by simp)

/-- **C113 fails** for annotations in classes of modes: a name without a value, which is no member of the `Enum`, is listed as a mode. -/
theorem C113_member_violated : (parse [.cls "CarMode" ["Enum"] [.ann (.name "label") (some "str") false, .assign (.name "Normal") false]]).map
    (fun d => Dict.get? d.modes "CarMode") = .ok (some ["label", "Normal"]) := by decide +kernel

/-- **C113 fails** for references to modes that are not defined: whatever the attribute, it is taken for a mode. -/
theorem C113_typo_violated (d : Defs) (cls attr : String) (ms : List String) (h : Dict.get? d.modes cls = some ms) : modeAttr d cls attr = some attr := by
  unfold modeAttr
  rw [h]
  rfl

/-- a misspelt mode -/
example : modeAttr ClassesEx.defs "CraftMode" "Nromal" = some "Nromal" ∧ ¬ ∃ ms, Dict.get? ClassesEx.defs.modes "CraftMode" = some ms ∧ "Nromal" ∈ ms := by
  refine ⟨C113_typo_violated _ _ _ ["Normal", "Up"] rfl, ?_⟩
  rintro ⟨ms, h, hm⟩
  have : Dict.get? ClassesEx.defs.modes "CraftMode" = some ["Normal", "Up"] := rfl
  rw [this] at h
  injection h with h
  subst h
  exact absurd hm (by decide)

end Verif.Props
