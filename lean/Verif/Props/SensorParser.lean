import Verif.Model.SensorParser
import Verif.Props.ParserWrap
import Verif.Proofs.Lane

/-!
C93: bounds of sensors.
-/

set_option autoImplicit false
set_option linter.unusedSectionVars false

namespace Verif.Props
open Verif.SensP Verif.Pars Verif.Spec Verif.Pw

variable {K : Type} [Field K] [LinearOrder K] [IsStrictOrderedRing K]

/-- The inputs `x` lie in the box. -/
def InputsIn (x : List K) (box : List (K × K)) : Prop := List.Forall₂ (fun v (b : K × K) => b.1 ≤ v ∧ v ≤ b.2) x box

/-- The outputs `y` lie between the bounds. -/
def OutIn (y : List K) (r : Out K) : Prop := List.Forall₂ (· ≤ ·) r.1 y ∧ List.Forall₂ (· ≤ ·) y r.2

/-- What is assumed of CROWN: its bounds contain the outputs of the sensor `f` for all inputs in the box; the number of outputs is `m`. -/
def CrownCovers (f : List K → Option (List K)) (m : Nat) (crown : Crown K) : Prop :=
  ∀ box r, crown box = .ok r → r.1.length = m ∧ r.2.length = m ∧ ∀ x y, InputsIn x box → f x = some y → OutIn y r

theorem forall2_min_left (a b y : List K) (h : List.Forall₂ (· ≤ ·) a y) (hl : b.length = a.length) :
    List.Forall₂ (· ≤ ·) (List.zipWith min a b) y := by
  induction h generalizing b with
  | nil => simp
  | cons h1 _ ih =>
    cases b with
    | nil => simp at hl
    | cons c b => exact .cons (le_trans (min_le_left _ _) h1) (ih b (by simpa using hl))

theorem forall2_max_left (a b y : List K) (h : List.Forall₂ (· ≤ ·) y a) (hl : b.length = a.length) :
    List.Forall₂ (· ≤ ·) y (List.zipWith max a b) := by
  induction h generalizing b with
  | nil => simp
  | cons h1 _ ih =>
    cases b with
    | nil => simp at hl
    | cons c b => exact .cons (le_trans h1 (le_max_left _ _)) (ih b (by simpa using hl))

theorem zipWith_min_comm' (a b : List K) : List.zipWith min a b = List.zipWith min b a := by
  rw [List.zipWith_comm]; congr 1; funext x y; exact min_comm _ _

theorem zipWith_max_comm' (a b : List K) : List.zipWith max a b = List.zipWith max b a := by
  rw [List.zipWith_comm]; congr 1; funext x y; exact max_comm _ _

theorem splitLoop_spec (f : List K → Option (List K)) (m : Nat) (crown : Crown K) (hc : CrownCovers f m crown) (parts : List (List (K × K)))
    (acc : Option (Out K)) (hacc : ∀ a, acc = some a → a.1.length = m ∧ a.2.length = m) (r : Option (Out K)) (h : splitLoop crown parts acc = .ok r) :
    (∀ y, (∃ a, acc = some a ∧ OutIn y a) → ∃ o, r = some o ∧ OutIn y o) ∧
    ∀ part ∈ parts, ∀ x y, InputsIn x part → f x = some y → ∃ o, r = some o ∧ OutIn y o := by
  induction parts generalizing acc with
  | nil =>
    cases h
    exact ⟨fun y h => h, fun part hp => by cases hp⟩
  | cons part parts ih =>
    obtain ⟨b, hb, h⟩ := (bind_ok_iff _ _ _).1 h
    obtain ⟨l1, l2, hcov⟩ := hc part b hb
    have hcomb : ∀ a, combine acc b = some a → a.1.length = m ∧ a.2.length = m := by
      intro a ha
      unfold combine at ha
      cases hq : acc with
      | none => rw [hq] at ha; cases ha; exact ⟨l1, l2⟩
      | some g =>
        rw [hq] at ha
        cases ha
        obtain ⟨g1, g2⟩ := hacc g hq
        simp [l1, l2, g1, g2]
    obtain ⟨ih1, ih2⟩ := ih (combine acc b) hcomb h
    refine ⟨?_, ?_⟩
    · rintro y ⟨a, rfl, hy⟩
      obtain ⟨a1, a2⟩ := hacc a rfl
      exact ih1 y ⟨_, rfl, forall2_min_left _ _ _ hy.1 (by rw [l1, a1]), forall2_max_left _ _ _ hy.2 (by rw [l2, a2])⟩
    · intro p hp x y hx hy
      rcases List.mem_cons.1 hp with rfl | hp
      · have hbx := hcov x y hx hy
        cases hq : acc with
        | none => exact ih1 y ⟨b, by rw [hq]; rfl, hbx⟩
        | some g =>
          obtain ⟨g1, g2⟩ := hacc g hq
          refine ih1 y ⟨_, by rw [hq]; rfl, ?_, ?_⟩
          · dsimp only
            rw [zipWith_min_comm']
            exact forall2_min_left _ _ _ hbx.1 (by rw [l1, g1])
          · dsimp only
            rw [zipWith_max_comm']
            exact forall2_max_left _ _ _ hbx.2 (by rw [l2, g2])
      · exact ih2 p hp x y hx hy

theorem inputs_split (n : Nat) (x : List K) (input : List (K × K)) (h0 : 0 < n ∨ ∀ b ∈ input, b.1 = b.2) (hx : InputsIn x input) :
    ∃ part ∈ product (input.map (splitIv n)), InputsIn x part := by
  have key : ∃ part, List.Forall₂ (fun p l => p ∈ l) part (input.map (splitIv n)) ∧ InputsIn x part := by
    induction hx with
    | nil => exact ⟨[], .nil, .nil⟩
    | @cons v b x input hv _ ih =>
      obtain ⟨part, h1, h2⟩ := ih (h0.imp_right fun h b hb => h b (List.mem_cons_of_mem _ hb))
      obtain ⟨c, hc, hcv⟩ := splitIv_covers n b (h0.imp_right fun h => h b List.mem_cons_self) v hv.1 hv.2
      exact ⟨c :: part, .cons hc h1, .cons hcv h2⟩
  obtain ⟨part, h1, h2⟩ := key
  exact ⟨part, (mem_product _ _).2 h1, h2⟩

/-- **C93.** The bounds over a box contain the outputs of the sensor for all inputs in the box, for any number of splits. -/
theorem C93_covers_partial (f : List K → Option (List K)) (m : Nat) (crown : Crown K) (hc : CrownCovers f m crown) (input : List (K × K)) (n : Nat)
    (h0 : 0 < n ∨ ∀ b ∈ input, b.1 = b.2) (r : Option (Out K)) (h : parsedSensorExpr crown input n = .ok r)
    (x y : List K) (hx : InputsIn x input) (hy : f x = some y) : ∃ o, r = some o ∧ OutIn y o := by
  obtain ⟨part, hp, hxp⟩ := inputs_split n x input h0 hx
  exact (splitLoop_spec f m crown hc _ none (fun a h => by cases h) r h).2 part hp x y hxp hy

/-- The bounds are not wider than CROWN's: each lower bound is one of a part, and likewise the upper bounds. -/
theorem splitLoop_tight (crown : Crown K) (i : Nat) (parts : List (List (K × K))) (acc : Option (Out K)) (o : Out K)
    (h : splitLoop crown parts acc = .ok (some o)) :
    (∀ v, o.1[i]? = some v → (∃ a, acc = some a ∧ a.1[i]? = some v) ∨ ∃ part ∈ parts, ∃ b, crown part = .ok b ∧ b.1[i]? = some v) ∧
    ∀ v, o.2[i]? = some v → (∃ a, acc = some a ∧ a.2[i]? = some v) ∨ ∃ part ∈ parts, ∃ b, crown part = .ok b ∧ b.2[i]? = some v := by
  induction parts generalizing acc with
  | nil =>
    cases h
    exact ⟨fun v hv => .inl ⟨o, rfl, hv⟩, fun v hv => .inl ⟨o, rfl, hv⟩⟩
  | cons part parts ih =>
    obtain ⟨b, hb, h⟩ := (bind_ok_iff _ _ _).1 h
    obtain ⟨ih1, ih2⟩ := ih (combine acc b) h
    constructor
    · intro v hv
      rcases ih1 v hv with ⟨a, ha, hav⟩ | ⟨p, hp, h⟩
      · cases hq : acc with
        | none =>
          rw [hq] at ha
          cases ha
          exact .inr ⟨part, List.mem_cons_self, b, hb, hav⟩
        | some g =>
          rw [hq] at ha
          cases ha
          obtain ⟨u, w, hu, hw, rfl⟩ := List.getElem?_zipWith_eq_some.1 hav
          rcases min_choice u w with e | e <;> rw [e]
          · exact .inl ⟨g, rfl, hu⟩
          · exact .inr ⟨part, List.mem_cons_self, b, hb, hw⟩
      · exact .inr ⟨p, List.mem_cons_of_mem _ hp, h⟩
    · intro v hv
      rcases ih2 v hv with ⟨a, ha, hav⟩ | ⟨p, hp, h⟩
      · cases hq : acc with
        | none =>
          rw [hq] at ha
          cases ha
          exact .inr ⟨part, List.mem_cons_self, b, hb, hav⟩
        | some g =>
          rw [hq] at ha
          cases ha
          obtain ⟨u, w, hu, hw, rfl⟩ := List.getElem?_zipWith_eq_some.1 hav
          rcases max_choice u w with e | e <;> rw [e]
          · exact .inl ⟨g, rfl, hu⟩
          · exact .inr ⟨part, List.mem_cons_self, b, hb, hw⟩
      · exact .inr ⟨p, List.mem_cons_of_mem _ hp, h⟩

/-- Each bound is a bound that CROWN gives for one of the parts of the box. -/
theorem C93_tight (crown : Crown K) (input : List (K × K)) (n : Nat) (o : Out K) (h : parsedSensorExpr crown input n = .ok (some o)) (i : Nat) :
    (∀ v, o.1[i]? = some v → ∃ part ∈ product (input.map (splitIv n)), ∃ b, crown part = .ok b ∧ b.1[i]? = some v) ∧
    ∀ v, o.2[i]? = some v → ∃ part ∈ product (input.map (splitIv n)), ∃ b, crown part = .ok b ∧ b.2[i]? = some v := by
  obtain ⟨h1, h2⟩ := splitLoop_tight crown i _ none o h
  exact ⟨fun v hv => (h1 v hv).resolve_left (by rintro ⟨a, ha, _⟩; cases ha), fun v hv => (h2 v hv).resolve_left (by rintro ⟨a, ha, _⟩; cases ha)⟩

/-! ### The cache -/

/-- Every entry of the cache is the result for the sensor of that name. -/
def CacheRight (defs : String → Crown K) (c : SCache K) : Prop := ∀ b s n r, Dict.get? c (b, s, n) = some r → parsedSensorExpr (defs s) b n = .ok r

theorem parsedSensor_spec (defs : String → Crown K) (c : SCache K) (hc : CacheRight defs c) (s : Sensor K) (hs : defs s.name = s.crown) (b : List (K × K)) (n : Nat) :
    (parsedSensor s none (some b) false n c).1 = parsedSensorExpr s.crown b n ∧ CacheRight defs (parsedSensor s none (some b) false n c).2 := by
  unfold parsedSensor
  simp only [Bool.false_eq_true, if_false]
  cases hg : Dict.get? c (b, s.name, n) with
  | some r => exact ⟨by rw [← hs, hc b s.name n r hg], hc⟩
  | none =>
    cases hr : parsedSensorExpr s.crown b n with
    | error e => exact ⟨rfl, hc⟩
    | ok r =>
      refine ⟨rfl, fun b' s' n' r' h' => ?_⟩
      dsimp only at h'
      rw [Dict.get?_set] at h'
      split_ifs at h' with he
      · cases h'
        cases he
        rw [hs, hr]
      · exact hc b' s' n' r' h'

/-- **C93, with the cache.** In a history of calls that starts with an empty cache, in which sensors of the same name are the same, every
call gives what it gives without a cache. -/
theorem C93_cache_partial (calls : List (Sensor K × List (K × K) × Nat))
    (hname : ∀ q ∈ calls, ∀ q' ∈ calls, q.1.name = q'.1.name → q.1.crown = q'.1.crown) :
    ∀ q r, (q, r) ∈ runCalls [] calls → r = parsedSensorExpr q.1.crown q.2.1 q.2.2 := by
  classical
  obtain ⟨defs, hdefs⟩ : ∃ defs : String → Crown K, ∀ q ∈ calls, defs q.1.name = q.1.crown := by
    refine ⟨fun nm => if h : ∃ q ∈ calls, q.1.name = nm then h.choose.1.crown else fun _ => .error "", fun q hq => ?_⟩
    have hex : ∃ q' ∈ calls, q'.1.name = q.1.name := ⟨q, hq, rfl⟩
    dsimp only
    rw [dif_pos hex]
    exact hname _ hex.choose_spec.1 q hq hex.choose_spec.2
  have key : ∀ (qs : List (Sensor K × List (K × K) × Nat)) (c : SCache K), (∀ q ∈ qs, q ∈ calls) → CacheRight defs c →
      ∀ q r, (q, r) ∈ runCalls c qs → r = parsedSensorExpr q.1.crown q.2.1 q.2.2 := by
    intro qs
    induction qs with
    | nil => intro c _ _ q r h; cases h
    | cons p qs ih =>
      intro c hq hc q r h
      obtain ⟨h1, h2⟩ := parsedSensor_spec defs c hc p.1 (hdefs p (hq p List.mem_cons_self)) p.2.1 p.2.2
      unfold runCalls at h
      rcases List.mem_cons.1 h with h | h
      · cases h
        exact h1
      · exact ih _ (fun q hm => hq q (List.mem_cons_of_mem _ hm)) h2 q r h
  exact key calls [] (fun _ h => h) (fun b s n r h => by cases h)

/-- A sensor whose output is its input plus `a`, with exact bounds. -/
def shifted (nm : String) (a : ℚ) : Sensor ℚ := ⟨nm, fun box => match box with | [b] => .ok ([b.1 + a], [b.2 + a]) | _ => .error "TypeError"⟩

/-- Its values. -/
def shift (a : ℚ) (x : List ℚ) : Option (List ℚ) := match x with | [v] => some [v + a] | _ => none

theorem shifted_covers (nm : String) (a : ℚ) : CrownCovers (shift a) 1 (shifted nm a).crown := by
  intro box r h
  match box, h with
  | [b], h =>
    cases h
    refine ⟨rfl, rfl, fun x y hx hy => ?_⟩
    cases hx with
    | cons hv ht =>
      cases ht
      cases hy
      exact ⟨.cons (by linarith [hv.1]) .nil, .cons (by linarith [hv.2]) .nil⟩

/-- Four parts of `[0, 1]`; the sensor adds 1; then another sensor, and the first again. -/
example : parsedSensorExpr (shifted "s" 1).crown [(0, 1)] 4 = .ok (some ([1], [2])) ∧ CrownCovers (shift 1) 1 (shifted "s" 1).crown ∧
    (runCalls [] [(shifted "s" 1, [(0, 1)], 4), (shifted "t" 5, [(0, 1)], 4), (shifted "s" 1, [(0, 1)], 4)]).map Prod.snd =
      [.ok (some ([1], [2])), .ok (some ([5], [6])), .ok (some ([1], [2]))] :=
  ⟨by decide +kernel, shifted_covers _ _, by decide +kernel⟩

/-- **The cache mixes up sensors of the same name.** A second sensor with the name of the first gets the bounds of the first: the outputs
for inputs in [0, 1] are between 5 and 6, the bounds are 1 and 2. -/
theorem C93_cache_violated :
    (runCalls [] [(shifted "sense" 1, [(0, 1)], 1), (shifted "sense" 5, [(0, 1)], 1)]).map Prod.snd = [.ok (some ([1], [2])), .ok (some ([1], [2]))] ∧
    InputsIn [(0 : ℚ)] [(0, 1)] ∧ shift 5 [0] = some [5] ∧ ¬ OutIn [(5 : ℚ)] ([1], [2]) := by
  refine ⟨?_, .cons ⟨le_refl _, by norm_num⟩ .nil, by decide +kernel, ?_⟩
  · decide +kernel
  · rintro ⟨_, h⟩
    cases h with
    | cons h _ => norm_num at h

/-- **`parsed_sensor` cannot simulate**: with `sim` it always raises an exception, whatever the sensor and the inputs. -/
theorem C93_sim_violated (s : Sensor K) (inputs : Option (List K)) (bounds : Option (List (K × K))) (n : Nat) (c : SCache K) :
    ∃ e, parsedSensor s inputs bounds true n c = (.error e, c) := by
  unfold parsedSensor
  cases inputs with
  | none => exact ⟨_, rfl⟩
  | some x => exact ⟨_, rfl⟩

/-- Without splits there are no bounds, and no error either. -/
theorem C93_zero_splits_violated : parsedSensorExpr (shifted "s" 1).crown [(0, 1)] 0 = .ok none := by decide +kernel

/-! ### The replacements -/

/-- The Euclidean norm of a list. -/
noncomputable def norm (xs : List ℝ) : ℝ := Real.sqrt ((xs.map (fun x => x ^ 2)).sum)

/-- The replaced norm is larger than the norm, by at most 1/10000. -/
theorem C93_norm_partial (xs : List ℝ) : norm xs ≤ torchNorm xs ∧ torchNorm xs ≤ norm xs + 1 / 10000 := by
  unfold norm torchNorm
  have e : (xs.map (fun x => x * x)) = xs.map (fun x => x ^ 2) := List.map_congr_left fun x _ => (sq x).symm
  rw [e]
  have h0 : 0 ≤ (xs.map (fun x => x ^ 2)).sum := List.sum_nonneg fun x hx => by
    obtain ⟨y, _, rfl⟩ := List.mem_map.1 hx
    positivity
  refine ⟨Real.sqrt_le_sqrt (by linarith [show (0 : ℝ) ≤ 1 / 10 ^ 8 by positivity]), ?_⟩
  rw [Real.sqrt_le_left (by positivity)]
  have hs := Real.sq_sqrt h0
  have hn := Real.sqrt_nonneg (xs.map (fun x => x ^ 2)).sum
  nlinarith

/-- **The bounds of a norm do not contain it**: at the point 0 the replaced norm is 1/10000, and so are exact bounds of it. -/
theorem C93_norm_violated : ∃ crown : Crown ℝ, CrownCovers (fun x => some [torchNorm x]) 1 crown ∧
    parsedSensorExpr crown [(0, 0), (0, 0)] 1 = .ok (some ([1 / 10000], [1 / 10000])) ∧ InputsIn [(0 : ℝ), 0] [(0, 0), (0, 0)] ∧
    norm [0, 0] = 0 ∧ ¬ OutIn [norm [0, 0]] ([1 / 10000], [1 / 10000]) := by
  have hz : torchNorm [0, 0] = 1 / 10000 := by
    unfold torchNorm
    rw [show ((([0, 0] : List ℝ).map (fun x => x * x)).sum + 1 / 10 ^ 8) = (1 / 10000) ^ 2 by norm_num, Real.sqrt_sq (by norm_num)]
  have hn : norm [0, 0] = 0 := by simp [norm]
  refine ⟨fun box => if box = [(0, 0), (0, 0)] then .ok ([1 / 10000], [1 / 10000]) else .error "", ?_, ?_, ?_, hn, ?_⟩
  · intro box r h
    dsimp only at h
    split_ifs at h with hb
    · subst hb
      cases h
      refine ⟨rfl, rfl, fun x y hx hy => ?_⟩
      cases hx with
      | cons h1 hx =>
        cases hx with
        | cons h2 hx =>
          cases hx
          have e1 := le_antisymm h1.2 h1.1
          have e2 := le_antisymm h2.2 h2.1
          dsimp only at e1 e2 hy
          rw [e1, e2, hz] at hy
          cases hy
          exact ⟨.cons (le_refl _) .nil, .cons (le_refl _) .nil⟩
  · simp [parsedSensorExpr, splitIv, product, splitLoop, combine, Except.bind]
  · exact .cons ⟨le_refl _, le_refl _⟩ (.cons ⟨le_refl _, le_refl _⟩ .nil)
  · rw [hn]
    rintro ⟨h, _⟩
    cases h with
    | cons h _ => norm_num at h

/-- The replaced `atan2` is right to the right of the y axis, and on the left at a distance of more than 10^-8 from it and not on the
x axis. -/
theorem C93_atan2_partial (y x : ℝ) (h : 0 < x ∨ (x < -(1 / 10 ^ 8) ∧ y ≠ 0)) : atan2Safe y x = Lane.arctan2 y x := by
  unfold atan2Safe
  rcases h with h | ⟨h, hy⟩
  · have e1 : sgn (x + 1 / 10 ^ 8) = 1 := by
      unfold sgn
      rw [if_neg (by have : (0 : ℝ) < 1 / 10 ^ 8 := by positivity
                     linarith), if_pos (by positivity)]
    have e2 : sgn x = 1 := by unfold sgn; rw [if_neg (by linarith), if_pos h]
    simp only [e1, e2, abs_of_pos h, mul_one, sub_self, mul_zero, zero_div, zero_mul, add_zero, if_neg h.ne']
    exact (Lane.arctan2_right x y h).symm
  · have hx : x < 0 := by have : (0 : ℝ) < 1 / 10 ^ 8 := by positivity
                          linarith
    have e1 : sgn (x + 1 / 10 ^ 8) = -1 := by unfold sgn; rw [if_pos (by linarith)]
    have e2 : sgn x = -1 := by unfold sgn; rw [if_pos hx]
    simp only [e1, e2, abs_of_neg hx, if_neg (neg_ne_zero.2 hx.ne)]
    rw [show y * -1 / -x = (x / y)⁻¹ by rw [inv_div, mul_neg, mul_one, neg_div_neg_eq]]
    rcases lt_or_gt_of_ne hy with hy | hy
    · have e3 : sgn y = -1 := by unfold sgn; rw [if_pos hy]
      rw [e3, Real.arctan_inv_of_pos (div_pos_of_neg_of_neg hx hy), Lane.arctan2_down x y hy]
      ring
    · have e3 : sgn y = 1 := by unfold sgn; rw [if_neg (by linarith), if_pos hy]
      rw [e3, Real.arctan_inv_of_neg (div_neg_of_neg_of_pos hx hy), Lane.arctan2_up x y hy]
      ring

example : (0 : ℝ) < 1 ∨ ((1 : ℝ) < -(1 / 10 ^ 8) ∧ (1 : ℝ) ≠ 0) := .inl one_pos

example : (0 : ℝ) < -1 ∨ ((-1 : ℝ) < -(1 / 10 ^ 8) ∧ (2 : ℝ) ≠ 0) := .inr ⟨by norm_num, by norm_num⟩

/-- **The replaced `atan2` is wrong** straight behind: 0 instead of π; close to the y axis on the left: more than π; and on the y axis: π instead of π / 2. -/
theorem C93_atan2_violated : atan2Safe 0 (-1) = 0 ∧ Lane.arctan2 0 (-1) = Real.pi ∧ Real.pi < atan2Safe 1 (-(1 / 10 ^ 9)) ∧
    (∀ y x, Lane.arctan2 y x ≤ Real.pi) ∧ atan2Safe 1 0 = Real.pi ∧ Lane.arctan2 1 0 = Real.pi / 2 := by
  refine ⟨?_, ?_, ?_, fun y x => Complex.arg_le_pi _, ?_, ?_⟩
  · simp [atan2Safe, sgn]
  · have : (⟨-1, 0⟩ : ℂ) = -1 := by apply Complex.ext <;> simp
    unfold Lane.arctan2
    rw [this, Complex.arg_neg_one]
  · have e1 : sgn (-(1 / 10 ^ 9) + 1 / 10 ^ 8) = 1 := by unfold sgn; norm_num
    have e2 : sgn (-(1 / 10 ^ 9)) = -1 := by unfold sgn; norm_num
    have e3 : sgn 1 = 1 := by unfold sgn; norm_num
    unfold atan2Safe
    have e4 : |-(1 / 10 ^ 9 : ℝ)| ≠ 0 := by norm_num
    simp only [e1, e2, e3, if_neg e4]
    have : 0 < Real.arctan (1 * 1 / |-(1 / 10 ^ 9 : ℝ)|) := by
      rw [Real.arctan_pos]
      positivity
    linarith
  · have e1 : sgn (0 + 1 / 10 ^ 8) = 1 := by unfold sgn; norm_num
    have e2 : sgn 0 = 0 := by unfold sgn; norm_num
    have e3 : sgn 1 = 1 := by unfold sgn; norm_num
    unfold atan2Safe
    simp only [e1, e2, e3, abs_zero, if_true, mul_one]
    ring
  · have : (⟨0, 1⟩ : ℂ) = Complex.I := by apply Complex.ext <;> simp
    unfold Lane.arctan2
    rw [this, Complex.arg_I]

/-! ### Bounds over a map -/

/-- `opt` finds a value of the function in the box: this is what an optimizer with a limited number of steps, like
`differential_evolution`, can promise. -/
def OptFound (opt : (K × K → K) → K × K → K × K → K) : Prop := ∀ f xb yb, xb.1 ≤ xb.2 → yb.1 ≤ yb.2 →
  ∃ x y, xb.1 ≤ x ∧ x ≤ xb.2 ∧ yb.1 ≤ y ∧ y ≤ yb.2 ∧ f (x, y) = opt f xb yb

/-- Both bounds are values of the function in the box; so the bounds never are too wide. -/
theorem C93_map_inner (opt : (K × K → K) → K × K → K × K → K) (h : OptFound opt) (f : K × K → K) (xb yb : K × K) (hx : xb.1 ≤ xb.2) (hy : yb.1 ≤ yb.2) :
    (∃ x y, xb.1 ≤ x ∧ x ≤ xb.2 ∧ yb.1 ≤ y ∧ y ≤ yb.2 ∧ f (x, y) = (optimizedBounds opt f xb yb).1) ∧
    ∃ x y, xb.1 ≤ x ∧ x ≤ xb.2 ∧ yb.1 ≤ y ∧ y ≤ yb.2 ∧ f (x, y) = (optimizedBounds opt f xb yb).2 := by
  refine ⟨h f xb yb hx hy, ?_⟩
  obtain ⟨x, y, h1, h2, h3, h4, h5⟩ := h (fun p => -(f p)) xb yb hx hy
  exact ⟨x, y, h1, h2, h3, h4, by unfold optimizedBounds; rw [← h5, neg_neg]⟩

/-- **C93, maps.** If what the optimizer finds for a function of a map and for its negative is not above any value in the box, the bounds contain all
values in the box. -/
theorem C93_map_partial (opt : (K × K → K) → K × K → K × K → K) (f : K × K → K) (xb yb : K × K)
    (h1 : ∀ x y, xb.1 ≤ x → x ≤ xb.2 → yb.1 ≤ y → y ≤ yb.2 → opt f xb yb ≤ f (x, y))
    (h2 : ∀ x y, xb.1 ≤ x → x ≤ xb.2 → yb.1 ≤ y → y ≤ yb.2 → opt (fun p => -(f p)) xb yb ≤ -(f (x, y)))
    (x y : K) (hx1 : xb.1 ≤ x) (hx2 : x ≤ xb.2) (hy1 : yb.1 ≤ y) (hy2 : y ≤ yb.2) :
    (optimizedBounds opt f xb yb).1 ≤ f (x, y) ∧ f (x, y) ≤ (optimizedBounds opt f xb yb).2 := by
  unfold optimizedBounds
  exact ⟨h1 x y hx1 hx2 hy1 hy2, by have := h2 x y hx1 hx2 hy1 hy2; dsimp only; linarith⟩

/-- **The bounds of a map function may miss values**: an optimizer that finds only the value at the lower left corner keeps the promise,
and for the function `x + y` over the unit square the bounds are 0 and 0. -/
theorem C93_map_violated : ∃ opt : (ℚ × ℚ → ℚ) → ℚ × ℚ → ℚ × ℚ → ℚ, OptFound opt ∧
    optimizedBounds opt (fun p => p.1 + p.2) (0, 1) (0, 1) = (0, 0) := by
  refine ⟨fun f xb yb => f (xb.1, yb.1), fun f xb yb hx hy => ⟨xb.1, yb.1, le_refl _, hx, le_refl _, hy, rfl⟩, by norm_num [optimizedBounds]⟩

/-- For `x + y` over the unit square the hypotheses of `C93_map_partial` hold for an optimizer that looks at the corners. -/
example : ∃ opt : (ℚ × ℚ → ℚ) → ℚ × ℚ → ℚ × ℚ → ℚ,
    (∀ x y : ℚ, 0 ≤ x → x ≤ 1 → 0 ≤ y → y ≤ 1 → opt (fun p => p.1 + p.2) (0, 1) (0, 1) ≤ x + y) ∧
    (∀ x y : ℚ, 0 ≤ x → x ≤ 1 → 0 ≤ y → y ≤ 1 → opt (fun p => -(p.1 + p.2)) (0, 1) (0, 1) ≤ -(x + y)) ∧
    optimizedBounds opt (fun p => p.1 + p.2) (0, 1) (0, 1) = (0, 2) := by
  refine ⟨fun f xb yb => min (f (xb.1, yb.1)) (f (xb.2, yb.2)), ?_, ?_, ?_⟩
  · intro x y h1 _ h2 _; norm_num; linarith
  · intro x y _ h1 _ h2; norm_num; linarith
  · norm_num [optimizedBounds]

/-! ### In the parser of sensors -/

/-- CROWN, as it is used by `parse_function` (C67): the expression is a sensor with the variables of the box as inputs and one output. -/
def crownOf (eng : PE K → List String → Crown K) (e : PE K) (box : Dict String (K × K)) : Except String (K × K) :=
  (parsedSensorExpr (eng e (box.map Prod.fst)) (box.map Prod.snd) 1).bind fun r => match r with
    | some ([l], [u]) => .ok (l, u)
    | _ => .error "TypeError"

/-- The value of the expression for given values of the variables. -/
def exprSensor (F : Funs K) (e : PE K) (vars : List String) (x : List K) : Option (List K) := (evalE F (vars.zip x) e).map (fun v => [v])

/-- What C67 assumes of CROWN holds if the bounds of the underlying library are right. -/
theorem C93_crown_partial (ctx : Ctx K) (eng : PE K → List String → Crown K) (h : ctx.crown = crownOf eng)
    (heng : ∀ e vars, CrownCovers (exprSensor ctx.F e vars) 1 (eng e vars)) : CrownSound ctx := by
  intro e box lu hlu env v hnames hbox hv
  rw [h] at hlu
  obtain ⟨r, hr, hlu'⟩ := (bind_ok_iff _ _ _).1 hlu
  have hx : ∃ x, InputsIn x (box.map Prod.snd) ∧ List.Forall₂ (fun n w => Dict.get? env n = some w) (box.map Prod.fst) x := by
    clear hnames hr hlu
    induction box with
    | nil => exact ⟨[], .nil, .nil⟩
    | cons q box ih =>
      obtain ⟨x, h1, h2⟩ := ih fun q hq => hbox q (List.mem_cons_of_mem _ hq)
      obtain ⟨w, hw, hb⟩ := hbox q List.mem_cons_self
      exact ⟨w :: x, .cons hb h1, .cons hw h2⟩
  obtain ⟨x, hx1, hx2⟩ := hx
  have hget : ∀ (vars : List String) (x : List K), List.Forall₂ (fun n w => Dict.get? env n = some w) vars x → ∀ n ∈ vars,
      Dict.get? (vars.zip x) n = Dict.get? env n := by
    intro vars x hf
    induction hf with
    | nil => intro n hn; cases hn
    | @cons m w vars x hw _ ih =>
      intro n hn
      rw [List.zip_cons_cons, Dict.get?_cons]
      split_ifs with hmn
      · subst hmn; exact hw.symm
      · rcases List.mem_cons.1 hn with rfl | hn
        · exact absurd rfl hmn
        · exact ih n hn
  have hev : exprSensor ctx.F e (box.map Prod.fst) x = some [v] := by
    unfold exprSensor
    rw [evalE_congr ctx.F _ env e fun n hn => hget _ _ hx2 n (hnames n hn), hv]
    rfl
  obtain ⟨o, ho, h1, h2⟩ := C93_covers_partial _ 1 _ (heng e (box.map Prod.fst)) (box.map Prod.snd) 1 (.inl Nat.one_pos) r hr x [v] hx1 hev
  subst ho
  obtain ⟨o1, o2⟩ := o
  match o1, o2, h1, h2 with
  | [l], [u], h1, h2 =>
    cases hlu'
    cases h1 with
    | cons a _ => cases h2 with
      | cons b _ => exact ⟨a, b⟩

/-- A library that knows sums of two variables. -/
def sumEngine : PE ℚ → List String → Crown ℚ
  | .add (.name a) (.name b), vars => fun box => match box with
    | [p, q] => if vars = [a, b] ∧ a ≠ b then .ok ([p.1 + q.1], [p.2 + q.2]) else .error "TypeError"
    | _ => .error "TypeError"
  | _, _ => fun _ => .error "TypeError"

/-- It is right, and gives bounds. -/
example (F : Funs ℚ) : (∀ e vars, CrownCovers (exprSensor F e vars) 1 (sumEngine e vars)) ∧
    crownOf sumEngine (.add (.name "x") (.name "y")) [("x", (0, 1)), ("y", (2, 3))] = .ok (2, 4) := by
  refine ⟨?_, by decide +kernel⟩
  intro e vars box r h
  unfold sumEngine at h
  split at h
  · rename_i a b
    split at h
    · rename_i p q
      split_ifs at h with hv
      obtain ⟨rfl, hab⟩ := hv
      cases h
      refine ⟨rfl, rfl, fun x y hx hy => ?_⟩
      cases hx with
      | cons h1 hx =>
        cases hx with
        | cons h2 hx =>
          cases hx
          simp [exprSensor, evalE, Dict.get?_cons, hab] at hy
          subst hy
          exact ⟨.cons (add_le_add h1.1 h2.1) .nil, .cons (add_le_add h1.2 h2.2) .nil⟩
    · cases h
  · cases h

end Verif.Props
