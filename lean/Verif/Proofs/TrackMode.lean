import Verif.Model.Simulator
import Verif.Spec.TrackMode

set_option autoImplicit false

namespace Verif.Spec
open Verif.Sim

variable {Env V : Type}

theorem indexOf?_none (l : List String) : indexOf? l "TrackMode" = none ↔ "TrackMode" ∉ l := by
  unfold indexOf?
  rw [List.findIdx?_eq_none_iff]
  constructor
  · intro h hm
    simpa using h _ hm
  · intro h x hx
    simp only [decide_eq_false_iff_not]
    rintro rfl
    exact h hx

theorem indexOf?_some (l : List String) (t : Nat) : indexOf? l "TrackMode" = some t ↔ TrackAt l t := by
  unfold indexOf? TrackAt
  rw [List.findIdx?_eq_some_iff_getElem]
  constructor
  · rintro ⟨h, h1, h2⟩
    refine ⟨by rw [List.getElem?_eq_getElem h]; simpa using h1, fun j hj e => ?_⟩
    obtain ⟨hj', e⟩ := List.getElem?_eq_some_iff.1 e
    simpa [e] using h2 j hj
  · rintro ⟨h1, h2⟩
    obtain ⟨h, e⟩ := List.getElem?_eq_some_iff.1 h1
    refine ⟨h, by simpa using e, fun j hj => ?_⟩
    simp only [decide_eq_true_eq]
    intro e
    exact h2 j hj (by rw [List.getElem?_eq_getElem (by omega), e])

theorem trackAt_mem {l : List String} {t : Nat} (h : TrackAt l t) : "TrackMode" ∈ l := List.mem_of_getElem? h.1

theorem trackAt_unique {l : List String} {t t' : Nat} (h : TrackAt l t) (h' : TrackAt l t') : t = t' := by
  rcases Nat.lt_trichotomy t t' with h1 | h1 | h1
  · exact absurd h.1 (h'.2 t h1)
  · exact h1
  · exact absurd h'.1 (h.2 t' h1)

theorem getTrack_iff (dl : Logic Env V) (mode : List V) (o : Option V) : getTrack dl mode = .ok o ↔ TrackOf dl.discType mode o := by
  unfold getTrack
  cases h : indexOf? dl.discType "TrackMode" with
  | none =>
    have hn := (indexOf?_none _).1 h
    constructor
    · intro e; cases e; exact .none hn
    · intro e
      cases e with
      | none _ => rfl
      | some t v h1 _ => exact absurd (trackAt_mem h1) hn
  | some t =>
    have ht := (indexOf?_some _ _).1 h
    constructor
    · intro e
      dsimp only at e
      split at e
      · rename_i v hv; cases e; exact .some t v ht hv
      · cases e
    · intro e
      cases e with
      | none hn => exact absurd (trackAt_mem ht) hn
      | some t' v h1 h2 =>
        obtain rfl := trackAt_unique ht h1
        dsimp only
        rw [h2]

theorem getMode_iff (dl : Logic Env V) (mode m : List V) : getMode dl mode = .ok m ↔ ModeOf dl.discType mode m := by
  unfold getMode
  cases h : indexOf? dl.discType "TrackMode" with
  | none =>
    have hn := (indexOf?_none _).1 h
    constructor
    · intro e; cases e; exact .all hn
    · intro e
      cases e with
      | all _ => rfl
      | first t i v h1 => exact absurd (trackAt_mem h1) hn
      | only t h1 => exact absurd (trackAt_mem h1) hn
  | some t =>
    have ht := (indexOf?_some _ _).1 h
    dsimp only
    cases hf : (List.range dl.discType.length).find? (fun i => decide (i ≠ t)) with
    | none =>
      have hall : ∀ j < dl.discType.length, j = t := by
        intro j hj
        have := List.find?_eq_none.1 hf j (List.mem_range.2 hj)
        simpa using this
      constructor
      · intro e; cases e; exact .only t ht hall
      · intro e
        cases e with
        | all hn => exact absurd (trackAt_mem ht) hn
        | first t' i v h1 h2 h3 =>
          exact absurd ((hall i h2).trans (trackAt_unique ht h1)) h3
        | only _ _ _ => rfl
    | some i =>
      have hi := List.find?_some hf
      simp only [decide_eq_true_eq] at hi
      have him := List.mem_range.1 (List.mem_of_find?_eq_some hf)
      have hlt : ∀ j < i, j = t := by
        intro j hj
        rw [List.find?_range_eq_some] at hf
        simpa using hf.2.2 j hj
      constructor
      · intro e
        dsimp only at e
        split at e
        · rename_i v hv; cases e; exact .first t i v ht him hi hlt hv
        · cases e
      · intro e
        cases e with
        | all hn => exact absurd (trackAt_mem ht) hn
        | only t' h1 h2 => exact absurd ((h2 i him).trans (trackAt_unique h1 ht)) hi
        | first t' i' v h1 h2 h3 h4 h5 =>
          obtain rfl := trackAt_unique ht h1
          have : i = i' := by
            rcases Nat.lt_trichotomy i i' with h | h | h
            · exact absurd (h4 i h) hi
            · exact h
            · exact absurd (hlt i' h) h3
          subst this
          dsimp only
          rw [h5]

theorem noTrack : "TrackMode" ∉ ["AgentMode"] := by decide

end Verif.Spec
