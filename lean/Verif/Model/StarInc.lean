import Verif.Model.Star

/-!
`verse/analysis/verifier.py`: the tube of an agent with the reachability method `STAR_SETS`, with and without the option `incremental`:
`check_cache_bloated_tube_stars` (66-124), `calculate_full_bloated_tube_stars` (127-235) and their calls (831-839, 431-456).

Simplifications
* `hit` is `TubeCache.check_hit` for the agent and its mode, with any answer or exception;
* a tube is the list of its stars with their times, as in `Star`.
-/

set_option autoImplicit false
set_option linter.unusedSectionVars false

namespace Verif.StarInc
open Verif.Stars

variable {K : Type} [Field K] [LinearOrder K]

abbrev Tube (K : Type) := List (K × StarSet K)

/-- 87-95: `np.array(star)` has no dimensions, and so `combined_rect[0, :]` raises for the second star; `tolist` of the array of one star is the star. -/
def combineArrays : List (StarSet K) → Except String (StarSet K)
  | [] => .error "AttributeError"
  | [s] => .ok s
  | _ :: _ :: _ => .error "IndexError"

/-- 85-110 for one segment: the counters of hits and misses after it. A tube from the cache is a list without `shape`, so the first hit raises (111). -/
def checkSegment (hit : StarSet K → Except String (Option (Tube K))) (seg : List (StarSet K)) (hits : Nat × Nat) : Except String (Nat × Nat) :=
  (combineArrays seg).bind fun s => (hit s).bind fun c => match c with
    | some _ => .error "AttributeError"
    | none => .ok (hits.1, hits.2 + 1)

/-- The loop of `check_cache_bloated_tube_stars`, 85-123: the positions of the segments that are missing and the counters. The first argument bounds the number of
segments. -/
def checkLoop (hit : StarSet K → Except String (Option (Tube K))) (segLen : Nat) : Nat → Nat → List (StarSet K) → Nat × Nat → Except String (List Nat × (Nat × Nat))
  | 0, _, _, hits => .ok ([], hits)
  | _ + 1, _, [], hits => .ok ([], hits)
  | n + 1, idx, s :: ss, hits => (checkSegment hit ((s :: ss).take segLen) hits).bind fun hits =>
      (checkLoop hit segLen n (idx + segLen) ((s :: ss).drop segLen) hits).map fun r => (idx :: r.1, r.2)

/-- `check_cache_bloated_tube_stars`, 66-124, which is called only with `incremental`: no tube is ever found. `range` raises for a step of 0. -/
def checkStars (hit : StarSet K → Except String (Option (Tube K))) (segLen : Nat) (inits : List (StarSet K)) (hits : Nat × Nat) : Except String (List Nat × (Nat × Nat)) :=
  if segLen = 0 then .error "ValueError" else checkLoop hit segLen inits.length 0 inits hits

/-- 181-183: the star of a segment. -/
def segmentStar (combine : List (StarSet K) → Except String (StarSet K)) (first : StarSet K) (seg : List (StarSet K)) : Except String (StarSet K) :=
  if seg.length > 1 then combine seg else .ok first

/-- The loop 169-216 with `incremental`: `combined_rect` is a name without a value (216). -/
def incLoop (combine : List (StarSet K) → Except String (StarSet K)) (reach : StarSet K → Except String (Tube K)) (segLen : Nat) (inits : List (StarSet K)) :
    List Nat → Option (Tube K) → Except String (Option (Tube K))
  | [], last => .ok last
  | idx :: _, _ => match inits with
    | [] => .error "IndexError"
    | first :: _ => (segmentStar combine first ((inits.drop idx).take segLen)).bind fun st => (reach st).bind fun _ => .error "NameError"

/-- `calculate_full_bloated_tube_stars`, 127-235, with `incremental`; without a segment to compute, `reach_tube` has no value (235). -/
def incStars (combine : List (StarSet K) → Except String (StarSet K)) (reach : StarSet K → Except String (Tube K)) (segLen : Nat) (inits : List (StarSet K))
    (missing : List Nat) : Except String (Tube K) :=
  (incLoop combine reach segLen inits missing none).bind fun r => match r with
    | some t => .ok t
    | none => .error "UnboundLocalError"

/-- The tube of an agent in a node and the counters afterwards, 816-839 and 431-456. -/
def agentTube (incremental : Bool) (hit : StarSet K → Except String (Option (Tube K))) (combine : List (StarSet K) → Except String (StarSet K))
    (reach : StarSet K → Except String (Tube K)) (segLen : Nat) (inits : List (StarSet K)) (hits : Nat × Nat) : Except String (Tube K × (Nat × Nat)) :=
  if incremental then (checkStars hit segLen inits hits).bind fun c => (incStars combine reach segLen inits c.1).map fun t => (t, c.2)
  else (fullStars combine reach segLen inits).map fun t => (t, hits)

end Verif.StarInc
