import Verif.Proofs.Reading2
import Verif.Props.Parser
import Verif.Props.Guard

/-!
C97: what `verify` answers about guards is right for the decision logic as a Python program. This joins the parser model (C13 to C18) and the guard
model (C16, C20 to C23).
-/

set_option autoImplicit false

namespace Verif.Props
open Verif.Py Verif.Grd Verif.Grd.Spec Verif.Rd Verif.Rd.Spec

section
variable {V K : Type} [Field K] [LinearOrder K] [IsStrictOrderedRing K]

omit [IsStrictOrderedRing K] in
/-- **C97** (partial: for expressions of the forms the verifier handles, without map queries; where Python raises no type error). The verifier reads an
expression as a guard with the same truth: in every state, and for every way the names are bound to objects with the values of the state. -/
theorem C97_reading_partial {P : PyOps V} (hP : P.Lawful) {put : Val K → V} {lit : V → Option (Val K)} (hA : Agrees P put lit) (W : World K)
    (S : Scope) (e : Expr V) (f : Fml K) (h : readF lit S e = some f) (ρ : State K) (σ : Store V) (hS : Sees P put W S ρ σ)
    (hs : SafeF W ρ f) : P.truth (eval P σ e) = true ↔ evF W ρ f := readF_ok hA hP e S ρ σ f hS h hs

omit [Field K] [LinearOrder K] [IsStrictOrderedRing K] in
/-- **C97**: every guard over the variables of agents is what the verifier reads from some Python expression: the guard as
it is written. -/
theorem C97_written {put : Val K → V} {lit : V → Option (Val K)} (hl : ∀ v, lit (put v) = some v) (S : Scope) (f : Fml K) (h : KnownF S f) :
    readF lit S (writeF put f) = some f := readF_write hl f S h

omit [IsStrictOrderedRing K] in
/-- **C97**: the condition on map queries in the theorems below holds for every guard without map queries. -/
theorem C97_no_queries {Seg : Type} (W : World K) (M : Road K Seg) (ρ : State K) (s₀ s : Sensed K (Iv K)) (f : Fml K) (h : Asm.Spec.mapFreeF f = true) :
    QueriesFit W M ρ s₀ s f := queriesFit_free W M ρ s₀ s f h

/-- **C97 / C16** (partial as before; naming discipline as in C17). From the source of a condition to the answer of the verifier: the condition `e`, as
written, with comprehensions, filters, chains of comparisons and calls of helpers, is analysed by the parser, read by the verifier as `f`, unrolled and
checked on what is sensed. If the answer is "contained", `e` is true in Python in every state that is sensed; and where it is true, the answer is "may be hit". -/
theorem C97_condition_partial [DecidableEq V] {P : PyOps V} (hP : P.Lawful) {ν : Store V} {N : Names} {env env' : Env V} (hM : Module P ν N env)
    {ps : List (String × Option String)} (hps : ParamNames N (ps.map Prod.fst)) {e : Expr V} (hst : Static (N.params (ps.map Prod.fst)) e)
    {sv : Option (SV V)} (h : procV P.zero (ps.foldl (fun (e : Env V) p => e.addHole p.1 p.2) { env with asserts := [] }) e = .ok (sv, env'))
    (args : List V)
    {put : Val K → V} {lit : V → Option (Val K)} (hA : Agrees P put lit) (W : World K) (S : Scope) (f : Fml K) (hf : readF lit S (toExpr sv) = some f)
    (ρ : State K) (hS : Sees P put W S ρ (updMany ν (ps.map Prod.fst) args)) (hs : SafeF W ρ f)
    {Seg : Type} (M : Road K Seg) (Z : Solver K) (s₀ s : Sensed K (Iv K)) (hq : QueriesFit W M ρ s₀ s f) (hmap : W.dist = M.dist) (hlen : LenSensed W s₀.len)
    (hdisc : DiscSensed ρ s₀) (hcont : InSensed ρ s) (htmp : ∀ i, Dict.get? s.cont (.tmp i) = none) (hcor : Correct W Z) (hit contained : Bool)
    (hres : evalGuard W.fn M Z s₀ s f = .ok (hit, contained)) :
    (contained = true → P.truth (eval P (updMany ν (ps.map Prod.fst) args) e) = true) ∧
    (Complete Z → P.truth (eval P (updMany ν (ps.map Prod.fst) args) e) = true → hit = true) := by
  obtain ⟨c1, c3⟩ := readF_shape _ S f hf
  have h17 := (C17_names_scoped_as_in_python_partial hP hM hps hst h args).1
  rw [c1] at h17
  have h17 := h17.resolve_left (by simp)
  have hr := C97_reading_partial hP hA W S _ f hf ρ _ hS hs
  rw [h17] at hr
  rw [hr]
  exact evalGuard_read W M Z s₀ s f ρ (hit, contained) hlen hdisc hcont c3 hq htmp hmap hcor hres

/-- **C97** (partial: restrictions of C13, of the reading and, for map queries, of C23; an ideal solver). If running the decision logic as a Python program gives a variable a new
value, then one of the extracted transitions is for this variable and this value, and `verify` answers, for every rectangle that contains the
state, that its guard may be hit. -/
theorem C97_transition_partial [DecidableEq V] {P : PyOps V} (hP : P.Lawful) {tt : V} (htt : P.truth tt = true) {ν : Store V} {N : Names}
    {env : Env V} {D : Logic V} {attrs : List String} (hD : D.WellNamed P ν N env attrs)
    (hcond : D.rest.all (notTop D.out) = true) (hn : D.noTwin P.zero env = true) {ir : IR V}
    (hir : extract P.zero tt env D.params D.body D.out = .ok ir) (args : List V) {σ' : Store V}
    (hrun : execs P (D.start ν args) D.body = .ok σ')
    {put : Val K → V} {lit : V → Option (Val K)} (hA : Agrees P put lit) (W : World K) (S : Scope) (ρ : State K)
    (hS : Sees P put W S ρ (D.start ν args)) {Seg : Type} (M : Road K Seg) (Z : Solver K) (hmap : W.dist = M.dist) (hcor : Correct W Z)
    (hcomp : Complete Z) :
    ∀ a ∈ attrs, P.getattr (σ' D.out) a = P.getattr (D.start ν args D.ego) a ∨
      ∃ p ∈ ir.paths, p.var = a ∧ eval P (D.start ν args) p.val = P.getattr (σ' D.out) a ∧
        ∀ f, readF lit S p.cond = some f → SafeF W ρ f → ∀ s₀ s : Sensed K (Iv K), LenSensed W s₀.len → DiscSensed ρ s₀ → InSensed ρ s →
          (∀ i, Dict.get? s.cont (.tmp i) = none) → QueriesFit W M ρ s₀ s f → ∀ hit contained, evalGuard W.fn M Z s₀ s f = .ok (hit, contained) → hit = true := by
  intro a ha
  rcases C13_extraction_covers_partial hP htt hD hcond hn hir args hrun a ha with h | ⟨p, hp, h1, h2, h3⟩
  · exact .inl h
  · refine .inr ⟨p, hp, h1, h3, ?_⟩
    intro f hf hsafe s₀ s hlen hdisc hcont htmp hq hit contained hres
    obtain ⟨-, c3⟩ := readF_shape _ S f hf
    exact (evalGuard_read W M Z s₀ s f ρ (hit, contained) hlen hdisc hcont c3 hq htmp hmap hcor hres).2 hcomp
      ((C97_reading_partial hP hA W S _ f hf ρ _ hS hsafe).1 h2)

/-- **C97** for assertions (partial: restrictions of C14, of the reading and, for map queries, of C23; an ideal solver). If running the decision logic as a Python program stops at
an assertion, then `verify` answers, for every rectangle that contains the state, that the precondition of one of the extracted assertions may be
hit and that the assertion is not contained: it reports the assertion. -/
theorem C97_assert_partial [DecidableEq V] {P : PyOps V} (hP : P.Lawful) {tt : V} (htt : P.truth tt = true) {ν : Store V} {N : Names}
    {env : Env V} {D : Logic V} {attrs : List String} (hD : D.WellNamed P ν N env attrs) (hn : D.noTwin P.zero env = true) {ir : IR V}
    (hir : extract P.zero tt env D.params D.body D.out = .ok ir) (args : List V) (hrun : execs P (D.start ν args) D.body = .error ())
    {put : Val K → V} {lit : V → Option (Val K)} (hA : Agrees P put lit) (W : World K) (S : Scope) (ρ : State K)
    (hS : Sees P put W S ρ (D.start ν args)) {Seg : Type} (M : Road K Seg) (Z : Solver K) (hmap : W.dist = M.dist) (hcor : Correct W Z)
    (hcomp : Complete Z) :
    ∃ x ∈ ir.asserts, ∀ pre cond, readF lit S x.pre = some pre → readF lit S x.cond = some cond → SafeF W ρ pre → SafeF W ρ cond →
      ∀ s₀ s : Sensed K (Iv K), LenSensed W s₀.len → DiscSensed ρ s₀ → InSensed ρ s → (∀ i, Dict.get? s.cont (.tmp i) = none) →
      QueriesFit W M ρ s₀ s pre → QueriesFit W M ρ s₀ s cond → ∀ hit contained hit' contained', evalGuard W.fn M Z s₀ s pre = .ok (hit, contained) → evalGuard W.fn M Z s₀ s cond = .ok (hit', contained') →
        hit = true ∧ contained' = false := by
  obtain ⟨x, hx, h1, h2⟩ := (C14_asserts_partial hP htt hD hn hir args).1 hrun
  refine ⟨x, hx, ?_⟩
  intro pre cond hpre hcond' s1 s2 s₀ s hlen hdisc hcont htmp hq hq' hit contained hit' contained' hres hres'
  obtain ⟨-, c3⟩ := readF_shape _ S pre hpre
  obtain ⟨-, d3⟩ := readF_shape _ S cond hcond'
  refine ⟨(evalGuard_read W M Z s₀ s pre ρ _ hlen hdisc hcont c3 hq htmp hmap hcor hres).2 hcomp
    ((C97_reading_partial hP hA W S _ pre hpre ρ _ hS s1).1 h1), ?_⟩
  by_contra hc
  have := (C97_reading_partial hP hA W S _ cond hcond' ρ _ hS s2).2
    ((evalGuard_read W M Z s₀ s cond ρ _ hlen hdisc hcont d3 hq' htmp hmap hcor hres').1 (by simpa using hc))
  rw [h2] at this
  cases this

end

/-! ### A case -/

/-- Values as objects of the witness universe. -/
def witPut : Val ℚ → Wit.W
  | .num r => .num r
  | .str s => .str s
  | .bool b => .bool b

/-- Constants of the witness universe. -/
def witLit : Wit.W → Option (Val ℚ)
  | .num r => some (.num r)
  | .str s => some (.str s)
  | .bool b => some (.bool b)
  | _ => none

theorem wit_agrees : Agrees Wit.ops witPut witLit where
  truth b := rfl
  ofBool b := rfl
  str s := rfl
  lit v c h := by
    cases v <;> simp only [witLit, Option.some.injEq, reduceCtorEq] at h <;> subst h <;> rfl
  neg a := rfl
  bin op a b _ := by cases op <;> rfl
  cmp op a b h := by
    cases op <;> cases a <;> cases b <;> simp only [Comparable, Mixed, not_true_eq_false, not_false_eq_true] at h <;>
      simp [Wit.ops, Wit.cmp, cmpText, witPut, holds, Wit.less, Wit.lessEq]
  zero := rfl
  add a b := by
    simp only [Wit.ops, Wit.add, witPut, Wit.toNum]
    split
    · rename_i h; cases h; simp
    · rfl

/-- Every guard of the witness universe can be written. -/
example (S : Scope) (f : Fml ℚ) (h : KnownF S f) : readF witLit S (writeF witPut f) = some f := C97_written (by intro v; cases v <;> rfl) S f h

/-- For instance, the guard `any(other.x + 1 >= ego.x for other in others)`. -/
example : KnownF (⟨["ego"], ["x"], ["others"], [], []⟩ : Scope) (.red false "other" "others" (.cmp .ge (.bin .add (.var (.attr "other" "x")) (.lit (.num (1 : ℚ))))
    (.var (.attr "ego" "x")))) := by
  simp [KnownF, KnownT, Rd.Scope.bind, Rd.Scope.free, listName]

/-- `ego` and one other. -/
def witArgs : List Wit.W := [.set (.set (.num 0) "x" (.num 3)) "m" (.str "A"), .cons (.set (.num 0) "x" (.num 7)) .nil]

/-- The same as a state. -/
def witState : State ℚ
  | .attr "ego" "x" => .num 3
  | .attr "ego" "m" => .str "A"
  | .elem "others" 0 "x" => .num 7
  | _ => .num 0

def witWorld : World ℚ := ⟨fun _ _ => .bool true, fun _ => 1, (straightRoad bend).dist⟩

def witScope : Scope := ⟨["ego"], ["x", "m", "y"], ["others"], [], []⟩

theorem wit_sees : Sees Wit.ops witPut witWorld witScope witState (Wit.D.start Wit.ν witArgs) where
  attr n hn a ha := by
    simp only [witScope, List.mem_cons, List.not_mem_nil, or_false] at hn ha
    subst hn
    rcases ha with rfl | rfl | rfl <;> decide +kernel
  length l hl := by
    simp only [witScope, List.mem_cons, List.not_mem_nil, or_false] at hl
    subst hl
    decide +kernel
  item l hl i v hv a ha := by
    simp only [witScope, List.mem_cons, List.not_mem_nil, or_false] at hl ha
    subst hl
    have e : Wit.ops.iter (Wit.D.start Wit.ν witArgs "others") = [.set (.num 0) "x" (.num 7)] := by decide +kernel
    rw [e] at hv
    match i with
    | 0 =>
      simp only [List.getElem?_cons_zero, Option.some.injEq] at hv
      subst hv
      rcases ha with rfl | rfl | rfl <;> decide +kernel
    | i + 1 => simp at hv
  call f hf := by simp [witScope] at hf
  method f hf := by simp [witScope] at hf
  query f hf := by simp [witScope] at hf

/-- What is sensed: a rectangle around the state. -/
def witSensed : Sensed ℚ (Iv ℚ) where
  cont := [(.attr "ego" "x", (2, 4)), (.attr "ego" "y", (0, 1))]
  contL := [(("others", "x"), [(6, 8)]), (("others", "y"), [(0, 1)])]
  disc := [(.attr "ego" "m", .str "A")]
  discL := []
  len := [("others", 1)]

/-- The guard of the first transition of the witness logic, as the verifier reads it: `any(o.x > ego.x and o.y == 0) and ego.x > 1 and ego.m == "A"`. -/
def witGuard : Option (Fml ℚ) :=
  (extract Wit.ops.zero (.bool true) Wit.env1 Wit.D.params Wit.D.body Wit.D.out).toOption.bind fun ir =>
    (ir.paths.find? fun p => decide (p.var = "m")).bind fun p => readF witLit witScope p.cond

/-- Whether there is an answer does not depend on the solver. -/
theorem evalGuard_answers {K Seg : Type} [Zero K] [LinearOrder K] (F : Funs K) (M : Road K Seg) (Z Z' : Solver K) (s₀ s : Sensed K (Iv K)) (f : Fml K)
    (h : (evalGuard F M Z s₀ s f).isOk = true) : ∃ hit contained, evalGuard F M Z' s₀ s f = .ok (hit, contained) := by
  have hc : ∀ cont fs, (contList Z cont fs).isOk = true → ∃ r, contList Z' cont fs = .ok r := by
    intro cont fs h
    unfold contList at h ⊢
    cases hg : genList fs with
    | error e => rw [hg] at h; cases h
    | ok r =>
      rw [hg] at h
      simp only [bind, Except.bind] at h ⊢
      cases r with
      | inl b => exact ⟨_, rfl⟩
      | inr z =>
        simp only at h ⊢
        split at h
        · cases h
        · rename_i h1
          rw [if_neg h1]
          split at h
          · cases h
          · rename_i h2
            rw [if_neg h2]
            split <;> exact ⟨_, rfl⟩
  have ok_of : ∀ {α : Type} {x : Except String α}, x.isOk = true → ∃ a, x = .ok a := by
    intro α x hx
    cases x with
    | error e => cases hx
    | ok a => exact ⟨a, rfl⟩
  obtain ⟨r, hr⟩ := ok_of h
  unfold evalGuard at hr ⊢
  obtain ⟨u, h1, hr⟩ := (bind_ok_iff _ _ _).1 hr
  obtain ⟨s₁, h2, hr⟩ := (bind_ok_iff _ _ _).1 hr
  obtain ⟨d, h3, hr⟩ := (bind_ok_iff _ _ _).1 hr
  simp only [h1, h2, h3, bind, Except.bind]
  split at hr
  · rename_i hd
    rw [if_pos hd]
    unfold check at hr ⊢
    obtain ⟨s₂, h4, hr⟩ := (bind_ok_iff _ _ _).1 hr
    obtain ⟨g, h5, hr⟩ := (bind_ok_iff _ _ _).1 hr
    simp only [h4, h5, bind, Except.bind]
    split at hr
    · rename_i hg
      rw [if_pos hg]
      obtain ⟨r', hr'⟩ := hc g.2.2 g.2.1 (by rw [hr]; rfl)
      exact ⟨r'.1, r'.2, hr'⟩
    · rename_i hg
      rw [if_neg hg]
      exact ⟨false, false, rfl⟩
  · rename_i hd
    rw [if_neg hd]
    exact ⟨false, false, rfl⟩

/-- The guard, written out. -/
def witFml : Fml ℚ := .and (.cons (.cmp .eq (.var (.attr "ego" "m")) (.lit (.str "A"))) (.cons (.and (.cons
  (.red false "o" "others" (.and (.cons (.cmp .gt (.var (.attr "o" "x")) (.var (.attr "ego" "x")))
    (.cons (.and (.cons (.cmp .eq (.var (.attr "o" "y")) (.lit (.num 0))) .nil)) .nil))))
  (.cons (.cmp .gt (.var (.attr "ego" "x")) (.lit (.num 1))) .nil))) .nil))

theorem wit_lookup : InSensed witState witSensed ∧ DiscSensed witState witSensed ∧ LenSensed witWorld witSensed.len := by
  refine ⟨⟨fun k iv h => ?_, fun l a ivs i iv h hi => ?_⟩, ⟨fun k v h => ?_, fun l a vs i v h => by simp [witSensed] at h⟩, fun l n h => ?_⟩
  · simp only [witSensed, Dict.get?_cons] at h
    split at h
    · rename_i e; cases h; exact ⟨3, by subst e; rfl, by norm_num, by norm_num⟩
    · split at h
      · rename_i e; cases h; exact ⟨0, by subst e; rfl, by norm_num, by norm_num⟩
      · simp at h
  · simp only [witSensed, Dict.get?_cons] at h
    split at h
    · rename_i e
      cases h; cases e
      match i with
      | 0 => cases hi; exact ⟨7, rfl, by norm_num, by norm_num⟩
      | i + 1 => simp at hi
    · split at h
      · rename_i e
        cases h; cases e
        match i with
        | 0 => cases hi; exact ⟨0, rfl, by norm_num, by norm_num⟩
        | i + 1 => simp at hi
      · simp at h
  · simp only [witSensed, Dict.get?_cons] at h
    split at h
    · rename_i e; cases h; subst e; rfl
    · simp at h
  · simp only [witSensed, Dict.get?_cons] at h
    split at h
    · cases h; rfl
    · simp at h

theorem wit_safe : SafeF witWorld witState witFml := by
  simp [witFml, SafeF, SafeAnd, SafeT, evT, look, Comparable, witState, bindTo, witWorld, Mixed]

/-- The case: the witness logic takes its first transition, `m` becomes `"B"`; the verifier reads its guard, gets an answer with the ideal solver, and the
answer is that the guard may be hit. -/
example : witGuard = some witFml ∧
    (execs Wit.ops (Wit.D.start Wit.ν witArgs) Wit.D.body).map (fun σ => Wit.getattr (σ "out") "m") = .ok (.str "B") ∧
    ∃ contained, evalGuard witWorld.fn (straightRoad bend) (idealSolver witWorld) witSensed witSensed witFml = .ok (true, contained) := by
  refine ⟨by decide +kernel, by decide +kernel, ?_⟩
  obtain ⟨hit, contained, h⟩ := evalGuard_answers witWorld.fn (straightRoad bend) (fun _ _ => .unknown) (idealSolver witWorld) witSensed witSensed witFml
    (by decide +kernel)
  obtain ⟨p, hp⟩ : ∃ p : Py.Path Wit.W, readF witLit witScope p.cond = some witFml ∧
      Wit.truth (eval Wit.ops (Wit.D.start Wit.ν witArgs) p.cond) = true := by
    have : ((extract Wit.ops.zero (.bool true) Wit.env1 Wit.D.params Wit.D.body Wit.D.out).toOption.bind fun ir =>
        ir.paths.find? fun p => decide (readF witLit witScope p.cond = some witFml ∧
          Wit.truth (eval Wit.ops (Wit.D.start Wit.ν witArgs) p.cond) = true)).isSome = true := by decide +kernel
    obtain ⟨p, hp⟩ := Option.isSome_iff_exists.1 this
    obtain ⟨ir, -, hp⟩ := Option.bind_eq_some_iff.1 hp
    exact ⟨p, by simpa using List.find?_some hp⟩
  have c3 := (readF_shape _ witScope witFml hp.1).2
  have hin := wit_lookup
  have := (evalGuard_read witWorld (straightRoad bend) (idealSolver witWorld) witSensed witSensed witFml witState (hit, contained) hin.2.2 hin.2.1 hin.1
    c3 (C97_no_queries _ _ _ _ _ _ (by decide +kernel)) (fun i => by simp [witSensed, Dict.get?]) rfl (idealSolver_ok witWorld).1 h).2 (idealSolver_ok witWorld).2
    ((C97_reading_partial Wit.lawful wit_agrees witWorld witScope _ witFml hp.1 witState _ wit_sees wit_safe).1 hp.2)
  exact ⟨contained, by rw [h, show hit = true from this]⟩

/-- A state where the assertion `0 < ego.x < 9` of the witness logic fails; both parts of the assertion are read. -/
example : execs Wit.ops (Wit.D.start Wit.ν [.set (.num 0) "x" (.num 12), .nil]) Wit.D.body = .error () ∧
    ((extract Wit.ops.zero (.bool true) Wit.env1 Wit.D.params Wit.D.body Wit.D.out).map fun ir =>
      ir.asserts.map fun x => (readF witLit witScope x.pre, readF witLit witScope x.cond)) =
    .ok [(some (.bool true), some (.and (.cons (.cmp .lt (.lit (.num 0)) (.var (.attr "ego" "x")))
      (.cons (.cmp .lt (.var (.attr "ego" "x")) (.lit (.num 9))) .nil))))] := by
  constructor
  · rfl
  · decide +kernel

end Verif.Props
