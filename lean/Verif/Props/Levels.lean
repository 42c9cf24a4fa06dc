import Verif.Proofs.Levels

/-!
C117: changing between the levels of the example maps in space.
-/

set_option autoImplicit false

namespace Verif.Props
open Verif Verif.Lane3d Verif.Levels Verif.Levels.Spec

/-- A change of modes is possible exactly for the steps to the level above or below and for the ends of such steps, and leads where it should. -/
theorem C117_changes (l a b r : String) : h (.str l) (.str a) (.str b) = .ok r ↔
    (a = "Normal" ∧ ∃ i j, Next b i j ∧ l = level i ∧ r = between i j) ∨ (b = "Normal" ∧ ∃ i j, Next a i j ∧ l = between i j ∧ r = level j) := by
  rw [← table]
  have e : h (.str l) (.str a) (.str b) = match Dict.get? hDict (l, a, b) with
    | some r => .ok r
    | none => .error "KeyError" := rfl
  rw [e]
  cases Dict.get? hDict (l, a, b) <;> simp

/-- `h_exist` tells whether `h` gives a result, for texts and for members of enumerations. -/
theorem C117_exists (l a b : Name) : hExist l a b = true ↔ ∃ r, h l a b = .ok r := by
  unfold hExist h
  cases lookup l a b <;> simp

/-- The lane of a lane mode is the level the agent is on or moves to, which is a lane of both maps. -/
theorem C117_lane (st : String × String) (i : Fin 3) (h : At i st) : trans st.1 = .ok (level i) ∧ level i ∈ map6.lanes ∧ level i ∈ map7.lanes := by
  cases h with
  | level i => revert i; decide +kernel
  | moving a b mode h =>
    have key : ∀ a b : Fin 3, (a.1 = b.1 + 1 ∨ b.1 = a.1 + 1) → trans (between a b) = .ok (level b) ∧ level b ∈ map6.lanes ∧ level b ∈ map7.lanes := by decide +kernel
    exact key a _ (h.imp And.right And.right)

/-- For every sequence of changes of modes an agent on a level can make: it is on a level or between two, on a known lane, and its lane differs from the first by as many
levels as it has begun to move up, less those it has begun to move down. -/
theorem C117_runs (ms : List String) : ∀ (st st' : String × String) (i : Fin 3), At i st → run ms st = .ok st' →
    ∃ j, At j st' ∧ (i.1 : Int) - (j.1 : Int) = gained ms := by
  induction ms with
  | nil => intro st st' i hi h; cases h; exact ⟨i, hi, by simp [gained]⟩
  | cons m ms ih =>
    intro st st' i hi h
    obtain ⟨l, hl, h⟩ := (bind_ok_iff _ _ _).1 h
    have step : ∃ k, At k (l, m) ∧ (i.1 : Int) - (k.1 : Int) = if m = "MoveUp" then 1 else if m = "MoveDown" then -1 else 0 := by
      rcases (C117_changes _ _ _ _).1 hl with ⟨ha, i', j, hn, h1, rfl⟩ | ⟨rfl, i', j, hn, h1, rfl⟩
      · refine ⟨j, .moving i' j m hn, ?_⟩
        have hii : i = i' := by
          cases hi with
          | level i => exact level_inj _ _ h1
          | moving a b mode hm => simp only at ha; subst ha; rcases hm with ⟨hm, _⟩ | ⟨hm, _⟩ <;> exact absurd hm (by decide)
        subst hii
        rcases hn with ⟨rfl, hn⟩ | ⟨rfl, hn⟩
        · simp; omega
        · simp; omega
      · have hij : i = j := by
          cases hi with
          | level i => rcases hn with ⟨hn, _⟩ | ⟨hn, _⟩ <;> simp at hn
          | moving a b mode hm =>
            simp only at h1 hn
            have : ∀ a b i' j : Fin 3, (a.1 = b.1 + 1 ∨ b.1 = a.1 + 1) → (i'.1 = j.1 + 1 ∨ j.1 = i'.1 + 1) → between a b = between i' j → b = j := by decide +kernel
            exact this a _ i' j (hm.imp And.right And.right) (hn.imp And.right And.right) h1
        subst hij
        exact ⟨i, .level i, by simp⟩
    obtain ⟨k, hk, hg⟩ := step
    obtain ⟨j, hj, hg'⟩ := ih _ _ _ hk h
    exact ⟨j, hj, by simp only [gained]; omega⟩

/-- In `SimpleMap6` an agent can move up or down exactly if its lane has a neighbour there, and the move ends on the first such neighbour. -/
theorem C117_neighbours_partial (i : Fin 3) (mode : String) (s : Side) (hm : (mode = "MoveUp" ∧ s = .up) ∨ (mode = "MoveDown" ∧ s = .down)) :
    (map6.has s (level i) = some (hExist (.str (level i)) (.str "Normal") (.str mode))) ∧
      ∀ l r, h (.str (level i)) (.str "Normal") (.str mode) = .ok l → h (.str l) (.str mode) (.str "Normal") = .ok r → map6.lane s (level i) = some r := by
  have key : ∀ i : Fin 3, ∀ p ∈ [("MoveUp", Side.up), ("MoveDown", Side.down)], (map6.has p.2 (level i) = some (hExist (.str (level i)) (.str "Normal") (.str p.1))) ∧
      (∀ e ∈ hDict, ∀ e' ∈ hDict, h (.str (level i)) (.str "Normal") (.str p.1) = .ok e.2 → h (.str e.2) (.str p.1) (.str "Normal") = .ok e'.2 →
        map6.lane p.2 (level i) = some e'.2) := by decide +kernel
  have hp : (mode, s) ∈ [("MoveUp", Side.up), ("MoveDown", Side.down)] := by
    rcases hm with ⟨rfl, rfl⟩ | ⟨rfl, rfl⟩ <;> simp
  obtain ⟨k1, k2⟩ := key i (mode, s) hp
  refine ⟨k1, fun l r h1 h2 => ?_⟩
  have mem : ∀ a b c q, h (.str a) (.str b) (.str c) = .ok q → ∃ e ∈ hDict, e.2 = q := by
    intro a b c q hq
    have : Dict.get? hDict (a, b, c) = some q := by
      unfold h lookup at hq
      cases hg : Dict.get? hDict (a, b, c) with
      | none => simp [hg] at hq
      | some v => simp [hg] at hq; rw [hq]
    exact ⟨_, get_hDict _ _ this, rfl⟩
  obtain ⟨e, he, rfl⟩ := mem _ _ _ _ h1
  obtain ⟨e', he', rfl⟩ := mem _ _ _ _ h2
  exact k2 e he e' he' h1 h2

/-- The levels of `SimpleMap7` are parallel to the ground and eight units apart: a lane mode one level higher has a lane that is eight units higher at both ends. -/
theorem C117_heights (st st' : String × String) (i j : Fin 3) (h : At i st) (h' : At j st') :
    ∃ l l' e e', trans st.1 = .ok l ∧ trans st'.1 = .ok l' ∧ Dict.get? ends7 l = some e ∧ Dict.get? ends7 l' = some e' ∧
      e'.1.2.2 - e.1.2.2 = 8 * ((i.1 : Int) - (j.1 : Int)) ∧ e'.2.2.2 - e.2.2.2 = 8 * ((i.1 : Int) - (j.1 : Int)) ∧ (e.1.1, e.1.2.1) = (e'.1.1, e'.1.2.1) ∧
      (e.2.1, e.2.2.1) = (e'.2.1, e'.2.2.1) := by
  refine ⟨level i, level j, (Dict.get? ends7 (level i)).getD default, (Dict.get? ends7 (level j)).getD default, (C117_lane st i h).1, (C117_lane st' j h').1, ?_⟩
  clear h h'
  refine ⟨?_, ?_, ?_, ?_, ?_, ?_⟩
  · revert i; decide +kernel
  · revert j; decide +kernel
  all_goals revert i j; decide +kernel

/-! ### what goes wrong -/

/-- Modes that are members of an enumeration, as in a decision logic, are never found: `h_exist` is false for all of them and `h` raises, while the method of the base class
would give the result for their names. -/
theorem C117_members_violated : (∀ x y z : Name, (∃ s, x = .member s) ∨ (∃ s, y = .member s) ∨ (∃ s, z = .member s) → hExist x y z = false ∧ h x y z = .error "KeyError") ∧
    baseH h (.member "T1") (.member "Normal") (.member "MoveUp") = .ok "M10" := by
  refine ⟨?_, by decide +kernel⟩
  intro x y z hx
  cases x <;> cases y <;> cases z <;> simp_all [hExist, h, lookup]

/-- `SimpleMap7` has no neighbours: `has_up` and `has_down` are false for every lane, although an agent can move. -/
theorem C117_neighbours_violated : (∀ i, map7.has .up (level i) = some false ∧ map7.has .down (level i) = some false) ∧
    hExist (.str "T1") (.str "Normal") (.str "MoveUp") = true ∧ hExist (.str "T1") (.str "Normal") (.str "MoveDown") = true := by
  refine ⟨?_, by decide +kernel, by decide +kernel⟩
  decide +kernel

/-- The method of the base class gives no lane of `SimpleMap1` for any of its lanes. -/
theorem C117_base_violated : ∀ l ∈ lanes1, ∃ r, baseTrans l = .ok r ∧ r ∉ lanes1 := by
  have : ∀ l ∈ lanes1, baseTrans l ∈ ["T0", "T1", "T2", "T3", "T4"].map Except.ok := by decide +kernel
  intro l hl
  obtain ⟨r, hr, e⟩ := List.mem_map.1 (this l hl)
  refine ⟨r, e.symm, ?_⟩
  have : ∀ r ∈ ["T0", "T1", "T2", "T3", "T4"], r ∉ lanes1 := by decide +kernel
  exact this r hr

/-! ### concrete cases -/

/-- Up, then down twice: from the middle to the lowest level. -/
example : run ["MoveUp", "Normal", "MoveDown", "Normal", "MoveDown", "Normal"] ("T1", "Normal") = .ok ("T2", "Normal") := by decide +kernel

example : At 1 ("T1", "Normal") := .level 1

example : At 0 ("M10", "MoveUp") := .moving 1 0 "MoveUp" (.inl ⟨rfl, rfl⟩)

/-- There is nothing above the highest level. -/
example : run ["MoveUp"] ("T0", "Normal") = .error "KeyError" := by decide +kernel

end Verif.Props
