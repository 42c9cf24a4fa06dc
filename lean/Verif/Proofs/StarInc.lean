import Verif.Spec.StarInc
import Verif.Proofs.Star

set_option autoImplicit false
set_option linter.unusedSectionVars false

namespace Verif.StarInc
open Verif.Stars

variable {K : Type} [Field K] [LinearOrder K]

/-- With `incremental` no tube is computed. -/
theorem incStars_error (combine : List (StarSet K) → Except String (StarSet K)) (reach : StarSet K → Except String (Tube K)) (segLen : Nat) (inits : List (StarSet K))
    (missing : List Nat) (t : Tube K) : incStars combine reach segLen inits missing ≠ .ok t := by
  intro h
  obtain ⟨r, hr, h⟩ := (bind_ok_iff _ _ _).1 h
  cases missing with
  | nil => cases hr; cases h
  | cons idx m =>
    unfold incLoop at hr
    cases inits with
    | nil => cases hr
    | cons s ss =>
      obtain ⟨st, _, hr⟩ := (bind_ok_iff _ _ _).1 hr
      obtain ⟨_, _, hr⟩ := (bind_ok_iff _ _ _).1 hr
      cases hr

/-- One segment. -/
theorem fullStars_one (combine : List (StarSet K) → Except String (StarSet K)) (reach : StarSet K → Except String (Tube K)) (segLen : Nat) (s : StarSet K)
    (ss : List (StarSet K)) (hlen : (s :: ss).length ≤ segLen) :
    fullStars combine reach segLen (s :: ss) = (segmentStar combine s (s :: ss)).bind reach := by
  have h0 : segLen ≠ 0 := by simp at hlen; omega
  have ht : (s :: ss).take segLen = s :: ss := List.take_of_length_le hlen
  have hd : (s :: ss).drop segLen = [] := List.drop_eq_nil_of_le hlen
  unfold fullStars segmentStar
  rw [if_neg h0]
  simp only [List.length_cons, fullStarsLoop, ht, hd]
  have hloop : ∀ n l, fullStarsLoop combine reach segLen s n [] l = .ok l := by
    intro n l; cases n <;> rfl
  split
  · cases hc : combine (s :: ss) with
    | error e => rfl
    | ok c => cases hr : reach c <;> simp [Except.bind, hr, hloop]
  · cases hr : reach s <;> simp [Except.bind, hr, hloop]

end Verif.StarInc
