import Verif.Model.Verifier

/-!
`verse/analysis/verifier.py`: `Verifier.compute_full_reachtube_step_partitioned` (1616-1785), the step of `Scenario.verify_partitioned`, with
`Verifier._compute_trace_for_partition` (1825-1861) for DryVR. Simplifications as in `Model/Verifier.lean`.
-/

set_option autoImplicit false

namespace Verif.Ver

open Verif.Rect (Box combineRect partitionRect)

/-- Parameters of the partitioned analysis. -/
structure PWorld (S K V : Type) extends World S K V where
  /-- `n` and `partition_dims` -/
  parts : Nat
  dims  : Option (List Nat)
  /-- the continuous variables (without those that guards add) among what was sensed -/
  sensedCont : S → Dict Rst.Text (K × K)

variable {S G K V D : Type}

section
variable [LinearOrder K]

/-- `[t[i] for t in traces]`, lines 1870-1871 -/
def segColumn (ts : List (Tube K)) (i : Nat) : Except String (List (Seg K)) :=
  ts.mapM (fun t => match t[i]? with
    | some r => .ok r
    | none => .error "IndexError")

/-- Minimum and maximum over the rows, time included, lines 1870-1872. -/
def unionSeg : List (Seg K) → Except String (Seg K)
  | [] => .error "ValueError"
  | s :: ss => (combineRect (s.box :: ss.map Seg.box)).map fun c =>
      { t0 := (ss.map Seg.t0).foldl min s.t0, t1 := (ss.map Seg.t1).foldl max s.t1, box := c }

/-- `Verifier._union_traces`, lines 1863-1873. -/
def unionTubes : List (Tube K) → Except String (Tube K)
  | [] => .ok []
  | t :: ts => (List.range t.length).mapM (fun i => (segColumn (t :: ts) i).bind unionSeg)

/-- Lines 1646-1670: the tube of an agent; every initial rectangle is propagated by itself. `np.array([])[:, 0]` is an `IndexError`. -/
def partTube (bloat : Box K → Tube K) : List (Box K) → Except String (Tube K)
  | [] => .error "IndexError"
  | [i] => fullTube bloat 1000 [i]
  | is => (is.mapM (fun i => fullTube bloat 1000 [i])).bind unionTubes

end

/-- The entry of the agent in `state_dict` with another rectangle, line 1717. -/
def setSeg (sd : StateDict K V) (a : String) (seg : Seg K) : StateDict K V :=
  sd.map (fun x => if x.1 = a then (x.1, seg, x.2.2) else x)

/-- The entry of the agent with another mode, lines 1724-1726. -/
def setMode (sd : StateDict K V) (a : String) (m : List V) : StateDict K V :=
  sd.map (fun x => if x.1 = a then (x.1, x.2.1, m, x.2.2.2) else x)

section
variable [Field K] [LinearOrder K] [DecidableEq V]

/-- Lines 1646-1673: the missing tubes. -/
def fillParts (w : PWorld S K V) (b : Body S G K V D) (start remain : ℚ) (tr : Trace K) : Except String (Trace K) :=
  b.agents.foldlM (fun (tr : Trace K) a =>
    if Dict.mem tr a.1 then .ok tr
    else match Dict.get? b.mode a.1, Dict.get? b.init a.1 with
      | some m, some i => (partTube (fun r => w.bloat a.1 m r remain) i).map (fun t =>
          Dict.set tr a.1 (t.map (fun s => { s with t0 := s.t0 + start, t1 := s.t1 + start })))
      | _, _ => .error "KeyError") tr

/-- Lines 1710-1744 for one part: the rectangle after the reset. The continuous variables are sensed with the destination mode. -/
def partInit (w : PWorld S K V) (dl : Logic S G K V D) (sd : StateDict K V) (a : String) (src dest : List V) (paths : List (Path S G K V D))
    (seg : Seg K) (part : Box K) : Except String (Box K) :=
  let sd' := setSeg sd a { seg with box := part }
  let sense := w.sense a (if src ≠ dest then setMode sd' a dest else sd')
  (Rst.applyReset w.sh w.rd dl.cont dl.disc src part
    (paths.map (fun p => ⟨p.var, p.val, p.disc (w.sense a sd'), w.sensedCont sense⟩))).map Prod.snd

/-- Lines 1701-1746: all parts of the rectangle number `start` of the agent. Time is never cut: a 0 stands for it here. -/
def partInits (w : PWorld S K V) (b : Body S G K V D) (full : Trace K) (t : Trans S G K V D) (dest : List V) (start : Nat) :
    Except String (List (Box K)) :=
  match Dict.get? b.agents t.agent, Dict.get? full t.agent, Dict.get? b.mode t.agent with
  | some dl, some segs, some src => match segs[start]? with
    | some seg =>
      (partitionRect (0 :: seg.box.1, 0 :: seg.box.2) w.parts w.dims).bind fun ps =>
        (stateDict b full start).bind fun sd =>
          ps.mapM (fun p => partInit w dl sd t.agent src dest t.paths seg (p.1.tail, p.2.tail))
    | none => .error "IndexError"
  | _, _, _ => .error "KeyError"

/-- Lines 1692-1773: the child of a transition, and `idx[-1]`. -/
def partChild (w : PWorld S K V) (b : Body S G K V D) (full : Trace K) (t : Trans S G K V D) :
    Except String (Engine.Child (Body S G K V D) (Trace K) × Nat) :=
  match t.idxs.head?, t.idxs.getLast?, t.dest with
  | some start, some stop, some dest =>
    (partInits w b full t dest start).bind fun rs =>
      (mkChild w.toWorld b full { t with inits := rs } dest start).map fun c => (c, stop)
  | _, _, _ => .error "IndexError"

/-- `Verifier.compute_full_reachtube_step_partitioned`, lines 1616-1785. -/
def verifyPart (w : PWorld S K V) (n : Engine.Work (Body S G K V D) (Trace K)) (remain : ℚ) :
    Except String (Engine.Result (Body S G K V D) (Trace K) (Option (Dict String (List String)))) :=
  (fillParts w n.body n.start remain n.trace).bind fun full =>
    (getTransitions w.toWorld n.body full).bind fun
      | .asserts a idx =>
        if w.unsafeContinue then .ok { next := [], trace := full, hits := some a }
        else (mapTubes n.body (fun segs => segs.take (idx + 1)) full).map fun cut => { next := [], trace := cut, hits := some a }
      | .trans [] => .ok { next := [], trace := full, hits := none }
      | .trans (t :: ts) => ((t :: ts).mapM (partChild w n.body full)).bind fun cs =>
          (mapTubes n.body (fun segs => segs.take ((cs.map Prod.snd).foldl max 0 + 1)) full).map fun cut =>
            { next := cs.map Prod.fst, trace := cut, hits := none }

/-- The step as the loop of `Verifier.compute_full_reachtube_partitioned` uses it (lines 1549-1577, `proc_result`). The loop is the one of `verify`: first come
first served, without nodes whose height is `max_height - 1` or more and without nodes that have no time left (`Model/Engine.lean`). An exception in a
worker aborts the whole run in Python; here the node keeps the exception in place of its assertion hits. -/
def partStep (w : PWorld S K V) (n : Engine.Work (Body S G K V D) (Trace K)) (remain : ℚ) : Engine.Result (Body S G K V D) (Trace K) Hits :=
  match verifyPart w n remain with
  | .ok r => { next := r.next, trace := r.trace, hits := .ok r.hits }
  | .error e => { next := [], trace := n.trace, hits := .error e }

end

end Verif.Ver
