import Verif.Spec.Session
import Verif.Proofs.Scenario
import Verif.Props.Scenario
import Verif.Props.Utils

set_option autoImplicit false
set_option linter.unusedSectionVars false

namespace Verif.Proofs.Session

open Verif.Scn Verif.Scn.Spec Verif.Proofs.Scn Verif.Props

variable {G K M Tree Args I : Type}

theorem mapDict_get {A B : Type} {f : A → Except String B} : ∀ {d : Dict String A} {r : Dict String B}, mapDict f d = .ok r → ∀ {k : String} {a : A},
    Dict.get? d k = some a → ∃ b, f a = .ok b ∧ Dict.get? r k = some b
  | [], r, h, k, a, hk => by simp at hk
  | (k0, a0) :: d, r, h, k, a, hk => by
    unfold mapDict at h
    obtain ⟨b, hb, h⟩ := (bind_ok_iff _ _ _).1 h
    obtain ⟨r', hr, rfl⟩ := (map_ok_iff _ _ _).1 h
    rw [Dict.get?_cons] at hk ⊢
    by_cases hk0 : k0 = k
    · rw [if_pos hk0] at hk ⊢; cases hk; exact ⟨b, hb, rfl⟩
    · rw [if_neg hk0] at hk ⊢; exact mapDict_get hr hk

theorem mapDictG_get {A B : Type} {f : A → G → Except String (B × G)} : ∀ {d : Dict String A} {g : G} {r : Dict String B × G}, mapDictG f d g = .ok r →
    ∀ {k : String} {a : A}, Dict.get? d k = some a → ∃ g0 b, f a g0 = .ok b ∧ Dict.get? r.1 k = some b.1
  | [], g, r, h, k, a, hk => by simp at hk
  | (k0, a0) :: d, g, r, h, k, a, hk => by
    unfold mapDictG at h
    obtain ⟨b, hb, h⟩ := (bind_ok_iff _ _ _).1 h
    obtain ⟨r', hr, rfl⟩ := (map_ok_iff _ _ _).1 h
    rw [Dict.get?_cons] at hk ⊢
    by_cases hk0 : k0 = k
    · rw [if_pos hk0] at hk ⊢; cases hk; exact ⟨g, b, hb, rfl⟩
    · rw [if_neg hk0] at hk ⊢; exact mapDictG_get hr hk

/-- If the values do not depend on the generator, nor do the dictionaries. -/
theorem mapDictG_free {A B : Type} {f : A → G → Except String (B × G)} (hf : ∀ a g g', (f a g).map Prod.fst = (f a g').map Prod.fst) :
    ∀ (d : Dict String A) (g g' : G), (mapDictG f d g).map Prod.fst = (mapDictG f d g').map Prod.fst
  | [], g, g' => rfl
  | (k, a) :: d, g, g' => by
    unfold mapDictG
    have h := hf a g g'
    cases h1 : f a g with
    | error e =>
      cases h2 : f a g' with
      | error e' => rw [h1, h2] at h; injection h with h; subst h; rfl
      | ok b' => rw [h1, h2] at h; cases h
    | ok b =>
      cases h2 : f a g' with
      | error e' => rw [h1, h2] at h; cases h
      | ok b' =>
        rw [h1, h2] at h
        have hb : b.1 = b'.1 := by injection h
        have hd := mapDictG_free hf d b.2 b'.2
        simp only [Except.bind]
        cases h3 : mapDictG f d b.2 with
        | error e =>
          cases h4 : mapDictG f d b'.2 with
          | error e' => rw [h3, h4] at hd; injection hd with hd; subst hd; rfl
          | ok q => rw [h3, h4] at hd; cases hd
        | ok q =>
          cases h4 : mapDictG f d b'.2 with
          | error e' => rw [h3, h4] at hd; cases hd
          | ok q' =>
            rw [h3, h4] at hd
            have hq : q.1 = q'.1 := by injection hd
            simp [Except.map, hb, hq]

theorem enum_of_names {l : List MVal} {ns : List String} (h : l.mapM staticName = .ok ns) : l = ns.map MVal.enum := by
  replace h := (mapM_ok_iff _ _ _).1 h
  induction h with
  | nil => rfl
  | @cons a b l ns hab _ ih =>
    cases a with
    | str s => cases hab
    | enum n => injection hab with hab; subst hab; rw [ih]; rfl

theorem mkRoot_is {s : Scen MVal} {init : Dict String I} {root : Root K I} (h : mkRoot s init = .ok root) {id : String} {x : I}
    {mode static uncertain : List MVal} (h1 : Dict.get? init id = some x) (h2 : Dict.get? s.mode id = some mode) (h3 : Dict.get? s.static id = some static)
    (h4 : Dict.get? s.uncertain id = some uncertain) : RootIs root id x mode static uncertain := by
  obtain ⟨r, hr, rfl⟩ := (map_ok_iff _ _ _).1 h
  obtain ⟨ns, hns, hg⟩ := mapDict_get hr h3
  refine ⟨h1, ?_, ⟨ns, hg, enum_of_names hns⟩, h4⟩
  show Dict.get? (List.map (fun (kv : String × List MVal) => (kv.1, kv.2.map modeName)) s.mode) id = _
  rw [Dict.get?_mapVals s.mode (fun v => v.map modeName), h2]; rfl

theorem mkRoot_init {s : Scen MVal} {init : Dict String I} {root : Root K I} (h : mkRoot s init = .ok root) : root.init = init ∧ root.agents = s.agents := by
  obtain ⟨r, hr, rfl⟩ := (map_ok_iff _ _ _).1 h
  exact ⟨rfl, rfl⟩

theorem runTool_ok {tool : Tool K I M Tree Args} {s : Session G K M Tree} {args : Args} {root : Root K I} {t : Tree} {s' : Session G K M Tree}
    (h : runTool tool s args root = .ok (t, s')) :
    tool s.tool root args s.past.length s.past = .ok (t, s'.tool) ∧ s'.past = s.past ++ [t] ∧ s'.st = s.st ∧ s'.rng = s.rng := by
  obtain ⟨r, hr, he⟩ := (map_ok_iff _ _ _).1 h
  cases he
  exact ⟨hr, rfl, rfl, rfl⟩

/-! ### `_get_init_from_agent` -/

theorem getInitOne_mono {st st' : St K MVal} {id0 : String} (h : getInitOne st id0 = .ok st') :
    Grown st.heap st'.heap ∧ st'.scen.agents.keys = st.scen.agents.keys ∧ (∀ id, (Dict.get? st.scen.init id).isSome = true ∨ id ≠ id0 → SameFor st.scen st'.scen id) := by
  unfold getInitOne at h
  by_cases hm : st.scen.init.mem id0 = true
  · rw [if_pos hm] at h; injection h with h; subst h
    exact ⟨grown_refl _, rfl, fun _ _ => ⟨rfl, rfl, rfl, rfl, rfl⟩⟩
  · rw [if_neg hm] at h
    have hn : ¬ (Dict.get? st.scen.init id0).isSome = true := fun h => hm ((Dict.mem_iff _ _).2 h)
    cases ha : Dict.get? st.scen.agents id0 with
    | none => rw [ha] at h; injection h with h; subst h; exact ⟨grown_refl _, rfl, fun _ _ => ⟨rfl, rfl, rfl, rfl, rfl⟩⟩
    | some a =>
      rw [ha] at h
      cases hc : a.initCont with
      | none => simp only [hc] at h; injection h with h; subst h; exact ⟨grown_refl _, rfl, fun _ _ => ⟨rfl, rfl, rfl, rfl, rfl⟩⟩
      | some m =>
        cases hd : a.initDisc with
        | none => simp only [hc, hd] at h; injection h with h; subst h; exact ⟨grown_refl _, rfl, fun _ _ => ⟨rfl, rfl, rfl, rfl, rfl⟩⟩
        | some d =>
          simp only [hc, hd] at h
          obtain ⟨-, hf, hg, hk⟩ := C35_single st st' id0 m d a.static a.uncertain h
          refine ⟨hg, hk, fun id hid => hf id ?_⟩
          rintro rfl
          rcases hid with hid | hid
          · exact hn hid
          · exact hid rfl

theorem knows_same {st st' : St K MVal} {id : String} {rows : List (List K)} {mode static uncertain : List MVal} (h : Knows st id rows mode static uncertain)
    (hs : SameFor st.scen st'.scen id) (hg : Grown st.heap st'.heap) : Knows st' id rows mode static uncertain := by
  obtain ⟨⟨m, h1, h2⟩, h3, h4, h5⟩ := h
  obtain ⟨-, s2, s3, s4, s5⟩ := hs
  exact ⟨⟨m, s2.trans h1, grown_deref hg h2⟩, s3.trans h3, s4.trans h4, s5.trans h5⟩

theorem knows_some {st : St K MVal} {id : String} {rows : List (List K)} {mode static uncertain : List MVal} (h : Knows st id rows mode static uncertain) :
    (Dict.get? st.scen.init id).isSome = true := by
  obtain ⟨⟨m, h1, -⟩, -⟩ := h
  rw [h1]; rfl

theorem fold_knows : ∀ {ids : List String} {st st' : St K MVal}, ids.foldlM getInitOne st = .ok st' → ∀ {id : String} {rows : List (List K)}
    {mode static uncertain : List MVal}, Knows st id rows mode static uncertain → Knows st' id rows mode static uncertain := by
  intro ids st st' h id rows mode static uncertain hk
  exact foldlM_inv (P := fun s => Knows s id rows mode static uncertain) h hk (fun b a b' _ hb hs => by
    obtain ⟨hg, -, hf⟩ := getInitOne_mono hs
    exact knows_same hb (hf id (.inl (knows_some hb))) hg)

theorem fold_own : ∀ {ids : List String} {st st' : St K MVal}, ids.foldlM getInitOne st = .ok st' → ∀ {id : String} {rows : List (List K)}
    {mode static uncertain : List MVal}, id ∈ ids → OwnInit st id rows mode static uncertain → Knows st' id (corners rows) mode static uncertain
  | [], _, _, _, _, _, _, _, _, hm, _ => by cases hm
  | id0 :: ids, st, st', h, id, rows, mode, static, uncertain, hm, hk => by
    obtain ⟨st1, h1, h2⟩ := (foldlM_cons_ok ..).1 h
    obtain ⟨hg, -, hf⟩ := getInitOne_mono h1
    obtain ⟨hn, a, m, ha, hc, hd, hdi, hst, hun⟩ := hk
    by_cases hid : id = id0
    · subst hid
      unfold getInitOne at h1
      rw [if_neg (fun h => by have := (Dict.mem_iff _ _).1 h; rw [hn] at this; cases this), ha] at h1
      simp only [hc, hdi] at h1
      obtain ⟨⟨rows', hr', -, ⟨m', n', a', i1, i2, i3, i4, i5, -⟩, -⟩, -⟩ := C35_single st st1 id m mode a.static a.uncertain h1
      rw [hd] at hr'; injection hr' with hr'; subst hr'
      rw [hst] at i4; rw [hun] at i5
      exact fold_knows h2 ⟨⟨m', i1, isolated_now i2⟩, i3, i4, i5⟩
    · obtain ⟨s1, s2, s3, s4, s5⟩ := hf id (.inr hid)
      exact fold_own h2 ((List.mem_cons.1 hm).resolve_left hid) ⟨s2.trans hn, a, m, s1.trans ha, hc, grown_deref hg hd, hdi, hst, hun⟩

theorem fold_keys {ids : List String} {st st' : St K MVal} (h : ids.foldlM getInitOne st = .ok st') : st'.scen.agents.keys = st.scen.agents.keys :=
  foldlM_inv (P := fun s => s.scen.agents.keys = st.scen.agents.keys) h rfl (fun b a b' _ hb hs => (getInitOne_mono hs).2.1.trans hb)

/-- When all agents have initial conditions, nothing is left to do. -/
theorem getInit_checked {st : St K MVal} (h : checkInit st.scen = true) : getInit st = .ok st := by
  unfold getInit
  have key : ∀ ids : List String, (∀ id ∈ ids, st.scen.init.mem id = true) → ids.foldlM getInitOne st = .ok st := by
    intro ids
    induction ids with
    | nil => intro _; rfl
    | cons id ids ih =>
      intro hm
      refine (foldlM_cons_ok ..).2 ⟨st, ?_, ih (fun x hx => hm x (List.mem_cons_of_mem _ hx))⟩
      unfold getInitOne
      rw [if_pos (hm id (by simp))]
  apply key
  intro id hid
  unfold checkInit at h
  rw [List.all_eq_true] at h
  have := h id hid
  simp only [Bool.and_eq_true] at this
  exact this.1.1.1

section
variable [Field K] [LinearOrder K] [IsStrictOrderedRing K]

theorem sample_in {R : Rng G K} (hR : Fair R) {seed : Option Int} {rows : List (List K)} {g : G} {r : List K × G} (h : sample R seed rows g = .ok r) :
    StateIn rows r.1 := by
  unfold sample at h
  obtain ⟨g', hg, h⟩ := (bind_ok_iff _ _ _).1 h
  match rows, h with
  | lo :: hi :: rest, h =>
    dsimp only at h
    by_cases hl : lo.length = hi.length
    · rw [if_pos hl] at h
      injection h with h
      subst h
      refine ⟨lo, hi, rest, rfl, fun hle => ?_⟩
      exact C49_sample lo hi _ hle (hR lo.length g').1 (hR lo.length g').2
    · rw [if_neg hl] at h; cases h

theorem sample_seeded {R : Rng G K} {k : Int} {rows : List (List K)} (g g' : G) :
    sample R (some k) rows g = sample R (some k) rows g' := rfl

theorem simulate_ok {R : Rng G K} {tool : Tool K (List K) M Tree Args} {s s' : Session G K M Tree} {args : Args} {seed : Option Int} {t : Tree}
    (h : simulate R tool s args seed = .ok (t, s')) :
    ∃ (st : St K MVal) (pts : Dict String (List K) × G) (root : Root K (List K)), getInit s.st = .ok st ∧ checkInit st.scen = true ∧
      mapDictG (fun m g => (rowsOf st.heap m).bind fun rows => sample R seed rows g) st.scen.init s.rng = .ok pts ∧ mkRoot st.scen pts.1 = .ok root ∧
      tool s.tool root args s.past.length s.past = .ok (t, s'.tool) ∧ s'.past = s.past ++ [t] ∧ s'.st = st ∧ s'.rng = pts.2 := by
  unfold simulate at h
  obtain ⟨st, hst, h⟩ := (bind_ok_iff _ _ _).1 h
  by_cases hc : checkInit st.scen = true
  · rw [if_pos hc] at h
    obtain ⟨pts, hp, h⟩ := (bind_ok_iff _ _ _).1 h
    obtain ⟨root, hr, h⟩ := (bind_ok_iff _ _ _).1 h
    obtain ⟨h1, h2, h3, h4⟩ := runTool_ok h
    exact ⟨st, pts, root, hst, hc, hp, hr, h1, h2, h3, h4⟩
  · rw [if_neg hc] at h; cases h

end

end Verif.Proofs.Session
