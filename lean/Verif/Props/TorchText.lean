import Verif.Spec.TorchText
import Verif.Props.SensorParser

/-!
C104: the translation of sensors to torch.
-/

set_option autoImplicit false

namespace Verif.Props
open Verif.Torch Verif.Torch.Spec Verif.SensP

/-! ### Larger primitives -/

/-- `Q` returns at least what `P` returns. -/
def PrimLe (P Q : String → List Val → Except String Val) : Prop := ∀ n args v, P n args = .ok v → Q n args = .ok v

theorem lookup_source_eq (P Q : String → List Val → Except String Val) (f : Fn) (L : List String) (ρ : Dict String Val) (n : String) :
    lookup (source P f) L ρ n = lookup (source Q f) L ρ n := rfl

mutual
theorem eval_mono (P Q : String → List Val → Except String Val) (hPQ : PrimLe P Q) (f : Fn) (T : Attrs) (L : List String) (ρ : Dict String Val) :
    (e : Expr) → (v : Val) → eval (source P f) T L ρ e = .ok v → eval (source Q f) T L ρ e = .ok v
  | .num x, v, h => h
  | .name n, v, h => h
  | .attr e a, v, h => by
    rw [eval] at h ⊢
    obtain ⟨o, h1, h2⟩ := (bind_ok_iff _ _ _).1 h
    exact (bind_ok_iff _ _ _).2 ⟨o, eval_mono P Q hPQ f T L ρ e o h1, h2⟩
  | .neg e, v, h => by
    rw [eval] at h ⊢
    obtain ⟨o, h1, h2⟩ := (bind_ok_iff _ _ _).1 h
    exact (bind_ok_iff _ _ _).2 ⟨o, eval_mono P Q hPQ f T L ρ e o h1, h2⟩
  | .bin op l r, v, h => by
    rw [eval] at h ⊢
    obtain ⟨x, h1, h2⟩ := (bind_ok_iff _ _ _).1 h
    obtain ⟨y, h3, h4⟩ := (bind_ok_iff _ _ _).1 h2
    exact (bind_ok_iff _ _ _).2 ⟨x, eval_mono P Q hPQ f T L ρ l x h1, (bind_ok_iff _ _ _).2 ⟨y, eval_mono P Q hPQ f T L ρ r y h3, h4⟩⟩
  | .pow e n, v, h => by
    rw [eval] at h ⊢
    obtain ⟨o, h1, h2⟩ := (bind_ok_iff _ _ _).1 h
    exact (bind_ok_iff _ _ _).2 ⟨o, eval_mono P Q hPQ f T L ρ e o h1, h2⟩
  | .call g args, v, h => by
    rw [eval] at h ⊢
    obtain ⟨x, h1, h2⟩ := (bind_ok_iff _ _ _).1 h
    obtain ⟨y, h3, h4⟩ := (bind_ok_iff _ _ _).1 h2
    refine (bind_ok_iff _ _ _).2 ⟨x, eval_mono P Q hPQ f T L ρ g x h1, (bind_ok_iff _ _ _).2 ⟨y, evals_mono P Q hPQ f T L ρ args y h3, ?_⟩⟩
    cases x with
    | fn n => exact hPQ n y v h4
    | num t x => exact h4
    | seq vs => exact h4
    | mod m => exact h4
  | .seq es, v, h => by
    rw [eval] at h ⊢
    obtain ⟨o, h1, h2⟩ := (bind_ok_iff _ _ _).1 h
    exact (bind_ok_iff _ _ _).2 ⟨o, evals_mono P Q hPQ f T L ρ es o h1, h2⟩
theorem evals_mono (P Q : String → List Val → Except String Val) (hPQ : PrimLe P Q) (f : Fn) (T : Attrs) (L : List String) (ρ : Dict String Val) :
    (es : Exprs) → (vs : List Val) → evals (source P f) T L ρ es = .ok vs → evals (source Q f) T L ρ es = .ok vs
  | .nil, vs, h => h
  | .cons e es, vs, h => by
    rw [evals] at h ⊢
    obtain ⟨v, h1, h2⟩ := (bind_ok_iff _ _ _).1 h
    obtain ⟨ws, h3, h4⟩ := (map_ok_iff _ _ _).1 h2
    exact (bind_ok_iff _ _ _).2 ⟨v, eval_mono P Q hPQ f T L ρ e v h1, (map_ok_iff _ _ _).2 ⟨ws, evals_mono P Q hPQ f T L ρ es ws h3, h4⟩⟩
end

theorem assign_mono (P Q : String → List Val → Except String Val) (hPQ : PrimLe P Q) (f : Fn) (L : List String) (st st' : Dict String Val × Attrs) (s : Expr × Expr)
    (h : assign (source P f) L st s = .ok st') : assign (source Q f) L st s = .ok st' := by
  unfold assign at h ⊢
  obtain ⟨v, h1, h2⟩ := (bind_ok_iff _ _ _).1 h
  refine (bind_ok_iff _ _ _).2 ⟨v, eval_mono P Q hPQ f _ L _ _ v h1, ?_⟩
  cases hs : s.1 with
  | attr o a =>
    rw [hs] at h2
    obtain ⟨w, h3, h4⟩ := (bind_ok_iff _ _ _).1 h2
    exact (bind_ok_iff _ _ _).2 ⟨w, eval_mono P Q hPQ f _ L _ _ w h3, h4⟩
  | _ => rw [hs] at h2; exact h2

theorem body_mono (P Q : String → List Val → Except String Val) (hPQ : PrimLe P Q) (f : Fn) (L : List String) (body : List (Expr × Expr))
    (st st' : Dict String Val × Attrs) (h : body.foldlM (assign (source P f) L) st = .ok st') : body.foldlM (assign (source Q f) L) st = .ok st' := by
  induction body generalizing st with
  | nil => exact h
  | cons s body ih =>
    obtain ⟨st1, h1, h2⟩ := (foldlM_cons_ok _ _ _ _ _).1 h
    exact (foldlM_cons_ok _ _ _ _ _).2 ⟨st1, assign_mono P Q hPQ f L st st1 s h1, ih st1 h2⟩

theorem runSource_mono (P Q : String → List Val → Except String Val) (hPQ : PrimLe P Q) (f : Fn) (xs y : List ℝ) (h : runSource P f xs = .ok y) :
    runSource Q f xs = .ok y := by
  unfold runSource at h ⊢
  obtain ⟨r, h1, h2⟩ := (bind_ok_iff _ _ _).1 h
  refine (bind_ok_iff _ _ _).2 ⟨r, ?_, h2⟩
  unfold run at h1 ⊢
  by_cases hl : (xs.map (Val.num true)).length = f.params.length
  · rw [if_pos hl] at h1 ⊢
    obtain ⟨st, h3, h4⟩ := (bind_ok_iff _ _ _).1 h1
    obtain ⟨v, h5, h6⟩ := (map_ok_iff _ _ _).1 h4
    exact (bind_ok_iff _ _ _).2 ⟨st, body_mono P Q hPQ f _ _ _ st h3, (map_ok_iff _ _ _).2 ⟨v, eval_mono P Q hPQ f _ _ _ _ v h5, h6⟩⟩
  · rw [if_neg hl] at h1; cases h1

theorem guarded_le_ideal : PrimLe guarded ideal := by
  intro n args v h
  unfold guarded at h
  unfold ideal
  split_ifs at h ⊢ with h1 h2 h3 h4
  · revert h; split <;> intro h
    · exact h
    · cases h
  · revert h; split <;> intro h
    · exact h
    · cases h
  · revert h; split <;> intro h
    · split_ifs at h; exact h
    · cases h
  · exact h

theorem guarded_le_replaced : PrimLe guarded replaced := by
  intro n args v h
  unfold guarded at h
  unfold replaced
  split_ifs at h ⊢ with h1 h2 h3 h4
  · revert h; split <;> intro h
    · simpa [libPrim] using h
    · cases h
  · revert h; split <;> intro h
    · simpa [libPrim] using h
    · cases h
  · revert h; split <;> intro h
    · rename_i y x
      split_ifs at h with hg
      rw [← h]
      simp only [torchPrim]
      rw [C93_atan2_partial y x hg]
      rfl
    · cases h
  · unfold torchPrim
    rw [if_neg h4]
    split_ifs with h5
    · subst h5
      unfold libPrim at h
      split at h
      · simp at h
      · cases h
    · exact h

/-! ### The translation -/

/-- What the replacements do to values. -/
def renName (n : String) : String := if n = "sin" then "torch.sin" else if n = "cos" then "torch.cos" else if n = "atan2" then "atan2_crown_safe" else n

def ren : Val → Val
  | .fn n => .fn (renName n)
  | v => v

def renD (ρ : Dict String Val) : Dict String Val := ρ.map (fun p => (p.1, ren p.2))

theorem get?_renD (ρ : Dict String Val) (n : String) : Dict.get? (renD ρ) n = (Dict.get? ρ n).map ren := by
  induction ρ with
  | nil => rfl
  | cons p ρ ih =>
    rw [show renD (p :: ρ) = (p.1, ren p.2) :: renD ρ from rfl, Dict.get?_cons, show p :: ρ = (p.1, p.2) :: ρ from rfl, Dict.get?_cons]
    split_ifs
    · rfl
    · exact ih

theorem set_renD (ρ : Dict String Val) (n : String) (v : Val) : Dict.set (renD ρ) n (ren v) = renD (Dict.set ρ n v) := by
  induction ρ with
  | nil => rfl
  | cons p ρ ih =>
    simp only [renD, List.map_cons, Dict.set]
    split_ifs
    · rfl
    · simp only [List.map_cons]; rw [← renD, ← renD, ih]

theorem libPrim_ren (n : String) (args : List Val) : libPrim n (args.map ren) = libPrim n args := by
  match args with
  | [] => rfl
  | [.num t x] => rfl
  | [.seq vs] => rfl
  | [.fn n] => rfl
  | [.mod n] => rfl
  | a :: b :: l => cases a <;> rfl

theorem torchPrim_ren (n : String) (args : List Val) : torchPrim n (args.map ren) = torchPrim n args := by
  unfold torchPrim
  rw [libPrim_ren]
  match args with
  | [] => rfl
  | [.num true x] => rfl
  | [.num false x] => rfl
  | [.seq vs] => rfl
  | [.fn n] => rfl
  | [.mod n] => rfl
  | [a, b] =>
    cases a with
    | num t x => cases t <;> cases b with
      | num u y => cases u <;> rfl
      | _ => rfl
    | _ => rfl
  | a :: b :: c :: l =>
    cases a with
    | num t x => cases t <;> cases b with
      | num u y => cases u <;> rfl
      | _ => rfl
    | _ => rfl

/-- Values that are numbers. -/
theorem libPrim_num (n : String) (args : List Val) (v : Val) (h : libPrim n args = .ok v) : ∃ t x, v = .num t x := by
  unfold libPrim at h
  split at h
  · split_ifs at h <;> cases h <;> exact ⟨_, _, rfl⟩
  · cases h

theorem torchPrim_num (n : String) (args : List Val) (v : Val) (h : torchPrim n args = .ok v) : ∃ t x, v = .num t x := by
  unfold torchPrim at h
  split_ifs at h
  · split at h
    · split_ifs at h; cases h; exact ⟨_, _, rfl⟩
    · cases h; exact ⟨_, _, rfl⟩
    · cases h
  · split at h
    · cases h; exact ⟨_, _, rfl⟩
    · cases h
  · exact libPrim_num n args v h

theorem map_ren_num (r : Except String Val) (h : ∀ v, r = .ok v → ∃ t x, v = .num t x) : r.map ren = r := by
  cases r with
  | error e => rfl
  | ok v => obtain ⟨t, x, rfl⟩ := h v rfl; rfl

theorem prim_ren (n : String) (args : List Val) : torchPrim (renName n) (args.map ren) = (replaced n args).map ren := by
  rw [torchPrim_ren]
  have key : torchPrim (renName n) args = replaced n args := by
    unfold renName replaced
    split_ifs with h1 h2 h3
    · simp [torchPrim]
    · simp [torchPrim]
    · rfl
    · rfl
  rw [key, map_ren_num]
  rw [← key]
  exact torchPrim_num _ args

theorem numbers_ren (vs : List Val) : numbers (vs.map ren) = numbers vs := by
  induction vs with
  | nil => rfl
  | cons v vs ih =>
    cases v with
    | num t x => simp only [List.map_cons, ren, numbers, ih]
    | _ => rfl

theorem get?_args (d : Dict String Val) (ps : List (String × Val)) (n : String) (h : ∀ p ∈ ps, p.1 ≠ n) :
    Dict.get? (ps.foldl (fun d (p : String × Val) => Dict.set d p.1 p.2) d) n = Dict.get? d n := by
  induction ps generalizing d with
  | nil => rfl
  | cons p ps ih =>
    rw [List.foldl_cons, ih _ (fun q hq => h q (List.mem_cons_of_mem _ hq)), Dict.get?_set_ne _ _ _ _ (h p List.mem_cons_self)]

/-- The names of `local_env` that are not parameters. -/
theorem localEnv_get (f : Fn) (args : List Val) (n : String) (h : n ∉ f.params) :
    Dict.get? (localEnv f args).globals n = if n = f.name then some (.fn "<the function itself>") else
      Dict.get? [("torch", .mod "torch"), ("np", .mod "np"), ("norm", .fn "norm"), ("atan2_crown", .fn "atan2_crown"),
       ("atan2_crown_safe", .fn "atan2_crown_safe"), ("abs", .fn "abs")] n := by
  unfold localEnv
  dsimp only
  by_cases hn : n = f.name
  · rw [if_pos hn, hn, Dict.get?_set_self]
  · rw [if_neg hn, Dict.get?_set_ne _ _ _ _ (Ne.symm hn), get?_args]
    rintro p hp rfl
    exact h (List.of_mem_zip hp).1

/-- The names of the source that are not local. -/
theorem name_ren (f : Fn) (hf : f.name ∉ reserved ∧ f.name ≠ "norm") (args : List Val) (L : List String) (hL : ∀ n ∈ L, n ∉ reserved) (hp : ∀ p ∈ f.params, p ∈ L)
    (ρ : Dict String Val) (n : String) (h1 : n ≠ "atan2_crown") (h2 : n ≠ "atan2_crown_safe") :
    eval (localEnv f args) [] L (renD ρ) (transform (.name n)) = (lookup (source replaced f) L ρ n).map ren := by
  have hres : ∀ m, m ∈ reserved → m ∉ L := fun m hm hl => hL m hl hm
  have glob : ∀ m, m ∉ L → lookup (localEnv f args) L (renD ρ) m = match Dict.get? (localEnv f args).globals m with
      | some v => .ok v
      | none => .error "NameError" := by
    intro m hm
    unfold lookup
    rw [if_neg hm]
    rfl
  obtain ⟨hf1, hf2⟩ := hf
  simp only [reserved, List.mem_cons, List.not_mem_nil, or_false, not_or] at hf1
  obtain ⟨f1, f2, f3, f4, f5⟩ := hf1
  have torch : lookup (localEnv f args) L (renD ρ) "torch" = .ok (.mod "torch") := by
    rw [glob _ (hres _ (by decide)), localEnv_get f args _ (fun h => hres "torch" (by decide) (hp _ h)), if_neg (Ne.symm f4)]
    rfl
  by_cases e1 : n = "sin"
  · subst e1
    have : lookup (source replaced f) L ρ "sin" = .ok (.fn "sin") := by
      unfold lookup
      rw [if_neg (hres _ (by decide))]
      simp [source, Dict.get?_cons, f1]
    rw [this]
    simp only [transform, funcMap, if_true, Option.getD_some, eval, torch]
    rfl
  by_cases e2 : n = "cos"
  · subst e2
    have : lookup (source replaced f) L ρ "cos" = .ok (.fn "cos") := by
      unfold lookup
      rw [if_neg (hres _ (by decide))]
      simp [source, Dict.get?_cons, f2]
    rw [this]
    simp only [transform, funcMap, if_true, if_neg e1, Option.getD_some, eval, torch]
    rfl
  by_cases e3 : n = "atan2"
  · subst e3
    have : lookup (source replaced f) L ρ "atan2" = .ok (.fn "atan2") := by
      unfold lookup
      rw [if_neg (hres _ (by decide))]
      simp [source, Dict.get?_cons, f3]
    rw [this]
    simp only [transform, funcMap, if_true, if_neg e1, if_neg e2, Option.getD_some, eval]
    rw [glob _ (hres _ (by decide)), localEnv_get f args _ (fun h => hres "atan2_crown_safe" (by decide) (hp _ h)), if_neg (Ne.symm f5)]
    rfl
  have e4 : transform (.name n) = .name n := by
    simp only [transform, funcMap, if_neg e1, if_neg e2, if_neg e3]
    split_ifs with h
    · rw [h]; rfl
    · rfl
  rw [e4, eval]
  by_cases hn : n ∈ L
  · unfold lookup
    rw [if_pos hn, if_pos hn, get?_renD]
    cases Dict.get? ρ n <;> rfl
  · rw [glob n hn, localEnv_get f args n (fun h => hn (hp _ h))]
    unfold lookup
    rw [if_neg hn]
    simp only [source, Dict.get?_cons, if_neg (Ne.symm e1), if_neg (Ne.symm e2), if_neg (Ne.symm e3), if_neg (Ne.symm h1), if_neg (Ne.symm h2)]
    by_cases e5 : n = f.name
    · rw [if_pos e5, if_pos e5.symm]; rfl
    · rw [if_neg e5, if_neg (Ne.symm e5)]
      by_cases e6 : "norm" = n
      · subst e6; rfl
      by_cases e7 : "torch" = n
      · subst e7; rfl
      by_cases e8 : "np" = n
      · subst e8; rfl
      simp only [if_neg e6, if_neg e7, if_neg e8]
      split_ifs <;> rfl

mutual
/-- The translated expression has the value of the expression, with the replaced functions. -/
theorem eval_ren (f : Fn) (hf : f.name ∉ reserved ∧ f.name ≠ "norm") (args : List Val) (L : List String) (hL : ∀ n ∈ L, n ∉ reserved) (hp : ∀ p ∈ f.params, p ∈ L)
    (ρ : Dict String Val) : (e : Expr) → Free "atan2_crown" e → Free "atan2_crown_safe" e →
      eval (localEnv f args) [] L (renD ρ) (transform e) = (eval (source replaced f) [] L ρ e).map ren
  | .num x, _, _ => rfl
  | .name n, h1, h2 => by
    rw [name_ren f hf args L hL hp ρ n h1 h2, eval]
  | .attr e a, h1, h2 => by
    rw [transform, eval, eval, eval_ren f hf args L hL hp ρ e h1 h2]
    cases eval (source replaced f) [] L ρ e with
    | error e => rfl
    | ok v =>
      cases v with
      | mod m =>
        show getAttr _ [] a (Val.mod m) = Except.map ren (getAttr _ [] a (Val.mod m))
        simp only [getAttr, show ∀ k, Dict.get? ([] : Attrs) k = none from fun _ => rfl, localEnv, source]
        unfold libAttr
        split_ifs <;> rfl
      | _ => rfl
  | .neg e, h1, h2 => by
    rw [transform, eval, eval, eval_ren f hf args L hL hp ρ e h1 h2]
    cases eval (source replaced f) [] L ρ e with
    | error e => rfl
    | ok v => cases v <;> rfl
  | .bin op l r, h1, h2 => by
    rw [transform, eval, eval, eval_ren f hf args L hL hp ρ l h1.1 h2.1, eval_ren f hf args L hL hp ρ r h1.2 h2.2]
    cases eval (source replaced f) [] L ρ l with
    | error e => rfl
    | ok v =>
      cases eval (source replaced f) [] L ρ r with
      | error e => rfl
      | ok w =>
        show binVal op (ren v) (ren w) = Except.map ren (binVal op v w)
        cases v with
        | num t x => cases w with
          | num u y =>
            show Except.map _ _ = Except.map ren (Except.map _ (arith op x y))
            cases arith op x y <;> rfl
          | _ => rfl
        | _ => rfl
  | .pow e n, h1, h2 => by
    rw [transform, eval, eval, eval_ren f hf args L hL hp ρ e h1 h2]
    cases eval (source replaced f) [] L ρ e with
    | error e => rfl
    | ok v => cases v <;> rfl
  | .call g as, h1, h2 => by
    rw [transform, eval, eval, eval_ren f hf args L hL hp ρ g h1.1 h2.1, evals_ren f hf args L hL hp ρ as h1.2 h2.2]
    cases eval (source replaced f) [] L ρ g with
    | error e => rfl
    | ok v =>
      cases evals (source replaced f) [] L ρ as with
      | error e => rfl
      | ok vs =>
        cases v with
        | fn n => exact prim_ren n vs
        | _ => rfl
  | .seq es, h1, h2 => by
    rw [transform, eval, eval, evals_ren f hf args L hL hp ρ es h1 h2]
    cases evals (source replaced f) [] L ρ es with
    | error e => rfl
    | ok vs =>
      show Except.map Val.seq (numbers (vs.map ren)) = Except.map ren (Except.map Val.seq (numbers vs))
      rw [numbers_ren]
      cases numbers vs <;> rfl
theorem evals_ren (f : Fn) (hf : f.name ∉ reserved ∧ f.name ≠ "norm") (args : List Val) (L : List String) (hL : ∀ n ∈ L, n ∉ reserved) (hp : ∀ p ∈ f.params, p ∈ L)
    (ρ : Dict String Val) : (es : Exprs) → Frees "atan2_crown" es → Frees "atan2_crown_safe" es →
      evals (localEnv f args) [] L (renD ρ) (transforms es) = (evals (source replaced f) [] L ρ es).map (List.map ren)
  | .nil, _, _ => rfl
  | .cons e es, h1, h2 => by
    rw [transforms, evals, evals, eval_ren f hf args L hL hp ρ e h1.1 h2.1, evals_ren f hf args L hL hp ρ es h1.2 h2.2]
    cases eval (source replaced f) [] L ρ e with
    | error e => rfl
    | ok v => cases evals (source replaced f) [] L ρ es <;> rfl
end

theorem body_ren (f : Fn) (hf : f.name ∉ reserved ∧ f.name ≠ "norm") (args : List Val) (L : List String) (hL : ∀ n ∈ L, n ∉ reserved) (hp : ∀ p ∈ f.params, p ∈ L)
    (body : List (Expr × Expr)) (hb : ∀ s ∈ body, (∃ n, s.1 = .name n ∧ n ∉ reserved) ∧ Free "atan2_crown" s.2 ∧ Free "atan2_crown_safe" s.2) (ρ : Dict String Val) :
    (body.map (fun s => (transform s.1, transform s.2))).foldlM (assign (localEnv f args) L) (renD ρ, []) =
      (body.foldlM (assign (source replaced f) L) (ρ, [])).map (fun st => (renD st.1, st.2)) ∧
    ∀ st, body.foldlM (assign (source replaced f) L) (ρ, []) = .ok st → st.2 = [] := by
  induction body generalizing ρ with
  | nil => exact ⟨rfl, fun st h => by cases h; rfl⟩
  | cons s body ih =>
    obtain ⟨⟨n, hs, hn⟩, h1, h2⟩ := hb s List.mem_cons_self
    have hb' := fun s hs => hb s (List.mem_cons_of_mem _ hs)
    have ht : transform s.1 = .name n := by
      rw [hs]
      simp only [reserved, List.mem_cons, List.not_mem_nil, or_false, not_or] at hn
      simp only [transform, funcMap, if_neg hn.1, if_neg hn.2.1, if_neg hn.2.2.1]
      split_ifs with h
      · rw [h]; rfl
      · rfl
    rw [List.map_cons, List.foldlM_cons, List.foldlM_cons]
    have e1 : assign (localEnv f args) L (renD ρ, []) (transform s.1, transform s.2) =
        (assign (source replaced f) L (ρ, []) s).map (fun st => (renD st.1, st.2)) := by
      unfold assign
      dsimp only
      rw [eval_ren f hf args L hL hp ρ s.2 h1 h2, ht, hs]
      cases eval (source replaced f) [] L ρ s.2 with
      | error e => rfl
      | ok v => show Except.ok (Dict.set (renD ρ) n (ren v), _) = _; rw [set_renD]; rfl
    have e2 : ∀ st, assign (source replaced f) L (ρ, []) s = .ok st → st.2 = [] := by
      intro st h
      unfold assign at h
      obtain ⟨v, _, h⟩ := (bind_ok_iff _ _ _).1 h
      rw [hs] at h
      cases h
      rfl
    rw [e1]
    cases hA : assign (source replaced f) L (ρ, []) s with
    | error e => exact ⟨rfl, fun st h => by cases h⟩
    | ok st =>
      have e3 := e2 st hA
      obtain ⟨σ, T⟩ := st
      cases e3
      exact ih hb' σ

theorem renD_nums (ps : List String) (xs : List ℝ) : renD (ps.zip (xs.map (Val.num true))) = ps.zip (xs.map (Val.num true)) := by
  induction ps generalizing xs with
  | nil => rfl
  | cons p ps ih =>
    cases xs with
    | nil => rfl
    | cons x xs =>
      exact congrArg (List.cons (p, Val.num true x)) (ih xs)

theorem assigned_transform (body : List (Expr × Expr)) (hb : ∀ s ∈ body, ∃ n, s.1 = .name n ∧ n ∉ reserved) :
    assigned (body.map (fun s => (transform s.1, transform s.2))) = assigned body ∧ ∀ n ∈ assigned body, n ∉ reserved := by
  induction body with
  | nil => exact ⟨rfl, fun n h => by cases h⟩
  | cons s body ih =>
    obtain ⟨n, hs, hn⟩ := hb s List.mem_cons_self
    obtain ⟨i1, i2⟩ := ih (fun s hs => hb s (List.mem_cons_of_mem _ hs))
    have ht : transform (.name n) = .name n := by
      have hn' := hn
      simp only [reserved, List.mem_cons, List.not_mem_nil, or_false, not_or] at hn'
      simp only [transform, funcMap, if_neg hn'.1, if_neg hn'.2.1, if_neg hn'.2.2.1]
      split_ifs with h
      · rw [h]; rfl
      · rfl
    unfold assigned at i1 i2 ⊢
    rw [List.map_cons, List.filterMap_cons, List.filterMap_cons]
    simp only [hs, ht]
    refine ⟨congrArg (List.cons n) i1, fun m hm => ?_⟩
    rcases List.mem_cons.1 hm with rfl | hm
    · exact hn
    · exact i2 m hm

/-- **C104.** The translated sensor returns what the source text returns with the functions that replace `sin`, `cos`, `atan2` and `norm`, and raises an exception
when the source text does; torch is left as it was. -/
theorem C104_translation_partial (f : Fn) (hf : Hygienic f) (xs : List ℝ) : runTorch f [] xs = (runSource replaced f xs).map (fun y => (y, [])) := by
  obtain ⟨a1, a2⟩ := assigned_transform f.body hf.targets
  have hL : ∀ n ∈ f.params ++ assigned f.body, n ∉ reserved := by
    intro n hn
    rcases List.mem_append.1 hn with h | h
    · exact hf.params n h
    · exact a2 n h
  obtain ⟨b1, b2⟩ := body_ren f hf.fname (xs.map (Val.num true)) (f.params ++ assigned f.body) hL (fun p h => List.mem_append_left _ h) f.body
    (fun s hs => ⟨hf.targets s hs, hf.body s hs⟩) (f.params.zip (xs.map (Val.num true)))
  rw [renD_nums] at b1
  unfold runTorch runSource run
  simp only [Fn.transform, a1]
  by_cases hl : (xs.map (Val.num true)).length = f.params.length
  · rw [if_pos hl, if_pos hl, b1]
    cases hB : f.body.foldlM (assign (source replaced f) (f.params ++ assigned f.body)) (f.params.zip (xs.map (Val.num true)), []) with
    | error e => rfl
    | ok st =>
      have e3 := b2 st hB
      obtain ⟨σ, T⟩ := st
      cases e3
      have e4 := eval_ren f hf.fname (xs.map (Val.num true)) (f.params ++ assigned f.body) hL (fun p h => List.mem_append_left _ h) σ f.ret hf.ret.1 hf.ret.2
      show (Except.map _ (eval _ [] _ (renD σ) _)).bind _ = Except.map _ ((Except.map _ (eval _ [] _ σ f.ret)).bind _)
      rw [e4]
      cases eval (source replaced f) [] (f.params ++ assigned f.body) σ f.ret with
      | error e => rfl
      | ok v =>
        show Except.map _ (outputs (ren v)) = Except.map _ (outputs v)
        cases v <;> rfl
  · rw [if_neg hl, if_neg hl]
    rfl

/-- **C104.** Where torch computes the mathematical functions, the translated sensor returns what the source text returns. -/
theorem C104_exact_partial (f : Fn) (hf : Hygienic f) (xs y : List ℝ) (h : runSource guarded f xs = .ok y) :
    runSource ideal f xs = .ok y ∧ runTorch f [] xs = .ok (y, []) := by
  refine ⟨runSource_mono _ _ guarded_le_ideal f xs y h, ?_⟩
  rw [C104_translation_partial f hf, runSource_mono _ _ guarded_le_replaced f xs y h]
  rfl

/-- **C104.** Sensors do not disturb each other: in any history of calls, each call of a sensor returns what it returns alone. -/
theorem C104_history_partial (calls : List (Fn × List ℝ)) (hf : ∀ c ∈ calls, Hygienic c.1) :
    session [] calls = calls.map (fun c => runSource replaced c.1 c.2) := by
  induction calls with
  | nil => rfl
  | cons c calls ih =>
    have ih := ih (fun c h => hf c (List.mem_cons_of_mem _ h))
    rw [session, C104_translation_partial c.1 (hf c List.mem_cons_self), List.map_cons]
    cases runSource replaced c.1 c.2 with
    | error e => exact congrArg _ ih
    | ok y => exact congrArg _ ih

/-- **C104.** The bounds computed for a sensor contain the outputs of its source text, for all inputs in the box (where torch computes the mathematical functions). -/
theorem C104_bounds_partial (f : Fn) (hf : Hygienic f) (m : Nat) (crown : Crown ℝ)
    (hc : CrownCovers (fun xs => ((runTorch f [] xs).map Prod.fst).toOption) m crown) (input : List (ℝ × ℝ)) (n : Nat) (h0 : 0 < n ∨ ∀ b ∈ input, b.1 = b.2)
    (r : Option (Out ℝ)) (h : parsedSensorExpr crown input n = .ok r) (xs y : List ℝ) (hx : InputsIn xs input) (hy : runSource guarded f xs = .ok y) :
    runSource ideal f xs = .ok y ∧ ∃ o, r = some o ∧ OutIn y o := by
  obtain ⟨h1, h2⟩ := C104_exact_partial f hf xs y hy
  exact ⟨h1, C93_covers_partial _ m crown hc input n h0 r h xs y hx (by rw [h2]; rfl)⟩

/-! ### Examples -/

namespace TorchEx

/-- `f(*args)` for names. -/
def app (f : String) (args : Exprs) : Expr := .call (.name f) args
/-- A list of one expression. -/
def one (e : Expr) : Exprs := .cons e .nil

/-- `def bearing(x, y, t): u = x * cos(t) + y * sin(t); return [u, atan2(y, x)]` -/
def bearing : Fn :=
  { name := "bearing", params := ["x", "y", "t"],
    body := [(.name "u", .bin .add (.bin .mul (.name "x") (app "cos" (one (.name "t")))) (.bin .mul (.name "y") (app "sin" (one (.name "t")))))],
    ret := .seq (.cons (.name "u") (one (app "atan2" (.cons (.name "y") (one (.name "x")))))) }

/-- `def wave(x): return [sin(x)]` -/
def wave : Fn := { name := "wave", params := ["x"], body := [], ret := .seq (one (app "sin" (one (.name "x")))) }

/-- `def double(sin): return [sin * 2]` -/
def double : Fn := { name := "double", params := ["sin"], body := [], ret := .seq (one (.bin .mul (.name "sin") (.num 2))) }

/-- `def store(x): sin = x; return [sin]` -/
def store : Fn := { name := "store", params := ["x"], body := [(.name "sin", .name "x")], ret := .seq (one (.name "sin")) }

/-- `def const(x): return [x * cos(0)]` -/
def const : Fn := { name := "const", params := ["x"], body := [], ret := .seq (one (.bin .mul (.name "x") (app "cos" (one (.num 0))))) }

/-- `def angle(y, x): return [atan2(y, x)]` -/
def angle : Fn := { name := "angle", params := ["y", "x"], body := [], ret := .seq (one (app "atan2" (.cons (.name "y") (one (.name "x"))))) }

theorem bearing_hygienic : Hygienic bearing := by
  refine ⟨?_, ?_, ?_, ?_, ?_⟩
  · intro s hs
    rw [List.mem_singleton.1 (show s ∈ [_] from hs)]
    exact ⟨"u", rfl, by decide⟩
  · exact (by decide : ∀ p ∈ ["x", "y", "t"], p ∉ reserved)
  · exact (by decide : "bearing" ∉ reserved ∧ "bearing" ≠ "norm")
  · intro s hs
    rw [List.mem_singleton.1 (show s ∈ [_] from hs)]
    simp [Free, Frees, app, one]
  · simp [bearing, Free, Frees, app, one]

theorem wave_hygienic : Hygienic wave := by
  refine ⟨fun s hs => absurd hs List.not_mem_nil, ?_, ?_, fun s hs => absurd hs List.not_mem_nil, ?_⟩
  · exact (by decide : ∀ p ∈ ["x"], p ∉ reserved)
  · exact (by decide : "wave" ∉ reserved ∧ "wave" ≠ "norm")
  · simp [wave, Free, Frees, app, one]

/-- The sensor in front: both outputs are the mathematical ones. -/
theorem bearing_run (x y t : ℝ) (hx : 0 < x) : runSource guarded bearing [x, y, t] = .ok [x * Real.cos t + y * Real.sin t, Lane.arctan2 y x] := by
  simp [runSource, run, bearing, app, one, assign, assigned, eval, evals, lookup, Dict.get?_cons, Dict.set, source, callVal, guarded, binVal, arith, numbers, outputs,
    Except.bind, Except.map, hx, bind, pure, Except.pure]

example (x y t : ℝ) (hx : 0 < x) : runTorch bearing [] [x, y, t] = .ok ([x * Real.cos t + y * Real.sin t, Lane.arctan2 y x], []) :=
  (C104_exact_partial bearing bearing_hygienic _ _ (bearing_run x y t hx)).2

theorem wave_run (x : ℝ) : runSource guarded wave [x] = .ok [Real.sin x] := by
  simp [runSource, run, wave, app, one, assigned, eval, evals, lookup, Dict.get?_cons, source, callVal, guarded, numbers, outputs,
    Except.bind, Except.map, pure, Except.pure]

theorem wave_torch (x : ℝ) : runTorch wave [] [x] = .ok ([Real.sin x], []) := (C104_exact_partial wave wave_hygienic _ _ (wave_run x)).2

example (x y t z : ℝ) : session [] [(bearing, [x, y, t]), (wave, [z]), (bearing, [x, y, t])] =
    [runSource replaced bearing [x, y, t], runSource replaced wave [z], runSource replaced bearing [x, y, t]] :=
  C104_history_partial _ (by
    intro c hc
    simp only [List.mem_cons, List.not_mem_nil, or_false] at hc
    rcases hc with rfl | rfl | rfl
    · exact bearing_hygienic
    · exact wave_hygienic
    · exact bearing_hygienic)

/-- Bounds of the wave. -/
def waveCrown : Crown ℝ := fun _ => .ok ([-1], [1])

theorem wave_covers : CrownCovers (fun xs => ((runTorch wave [] xs).map Prod.fst).toOption) 1 waveCrown := by
  intro box r h
  cases h
  refine ⟨rfl, rfl, fun xs y _ hy => ?_⟩
  match xs, hy with
  | [x], hy =>
    dsimp only at hy
    rw [wave_torch] at hy
    cases hy
    exact ⟨.cons (Real.neg_one_le_sin x) .nil, .cons (Real.sin_le_one x) .nil⟩
  | [], hy => simp [runTorch, run, wave, Fn.transform, Except.bind, Except.map, Except.toOption] at hy
  | _ :: _ :: _, hy => simp [runTorch, run, wave, Fn.transform, Except.bind, Except.map, Except.toOption] at hy

example (r : Option (Out ℝ)) (h : parsedSensorExpr waveCrown [(0, 10)] 4 = .ok r) (x : ℝ) (h1 : 0 ≤ x) (h2 : x ≤ 10) :
    ∃ o, r = some o ∧ OutIn [Real.sin x] o :=
  (C104_bounds_partial wave wave_hygienic 1 waveCrown wave_covers [(0, 10)] 4 (.inl (by norm_num)) r h [x] _ (.cons ⟨h1, h2⟩ .nil) (wave_run x)).2

end TorchEx

open TorchEx in
/-- **Names are replaced without regard to what they mean.** A parameter called `sin` is not seen by the translated sensor; and an assignment to a variable `sin`
overwrites `torch.sin`: a sensor that is called afterwards fails. -/
theorem C104_names_violated (x : ℝ) : (runSource ideal double [x] = .ok [x * 2] ∧ runTorch double [] [x] = .error "TypeError") ∧
    runSource ideal store [x] = .ok [x] ∧ session [] [(wave, [x])] = [.ok [Real.sin x]] ∧
    session [] [(store, [x]), (wave, [x])] = [.ok [x], .error "TypeError"] := by
  refine ⟨⟨?_, ?_⟩, ?_, ?_, ?_⟩
  · simp [runSource, run, double, one, assigned, eval, evals, lookup, Dict.get?_cons, binVal, arith, numbers, outputs, Except.bind, Except.map, pure, Except.pure]
  · simp [runTorch, run, double, Fn.transform, transform, transforms, funcMap, one, assigned, eval, evals, lookup, Dict.get?, localEnv, Dict.set, getAttr, libAttr, binVal,
      Except.bind, Except.map, pure, Except.pure]
  · simp [runSource, run, store, one, assign, assigned, eval, evals, lookup, Dict.get?_cons, Dict.set, numbers, outputs, Except.bind, Except.map, bind, pure, Except.pure]
  · simp [session, wave_torch]
  · simp [session, runTorch, run, store, wave, app, Fn.transform, transform, transforms, funcMap, one, assign, assigned, eval, evals, lookup, Dict.get?, localEnv, Dict.set,
      getAttr, callVal, numbers, outputs, Except.bind, Except.map, bind, pure, Except.pure]

open TorchEx in
/-- **The translated functions are not the mathematical ones.** A function of a number fails; and straight behind the angle is wrong. -/
theorem C104_functions_violated (x : ℝ) : (runSource ideal const [x] = .ok [x] ∧ runTorch const [] [x] = .error "TypeError") ∧
    runSource ideal angle [0, -1] = .ok [Real.pi] ∧ runTorch angle [] [0, -1] = .ok ([0], []) := by
  obtain ⟨h1, h2, _⟩ := C93_atan2_violated
  refine ⟨⟨?_, ?_⟩, ?_, ?_⟩
  · simp [runSource, run, const, app, one, assigned, eval, evals, lookup, Dict.get?_cons, source, callVal, ideal, binVal, arith, numbers, outputs, Except.bind, Except.map,
      pure, Except.pure]
  · simp [runTorch, run, const, app, Fn.transform, transform, transforms, funcMap, one, assigned, eval, evals, lookup, Dict.get?, localEnv, Dict.set, getAttr, libAttr,
      callVal, torchPrim, libPrim, Except.bind, Except.map, pure, Except.pure]
  · simp [runSource, run, angle, app, one, assigned, eval, evals, lookup, Dict.get?_cons, source, callVal, ideal, numbers, outputs, Except.bind, Except.map, pure,
      Except.pure, h2]
  · simp [runTorch, run, angle, app, Fn.transform, transform, transforms, funcMap, one, assigned, eval, evals, lookup, Dict.get?, localEnv, Dict.set,
      callVal, torchPrim, numbers, outputs, Except.bind, Except.map, pure, Except.pure, h1]

end Verif.Props
