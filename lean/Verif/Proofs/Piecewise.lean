import Verif.Spec.Piecewise
import Verif.Proofs.Basic

/-! Lemmas about Verif/Model/Piecewise.lean. -/

set_option autoImplicit false
set_option linter.unusedSectionVars false

namespace Verif.Pw

open Verif.Spec

variable {K : Type} [Field K] [LinearOrder K]

/-- The point given by the values of the variables. -/
def pt (env : Env K) (n : String) : K := (Dict.get? env n).getD 0

theorem toZ_val (F : Funs K) (d0 : K → K) (vars : List String) (env : Env K) : ∀ (e : PE K) (z : ZE K) (v : K),
    toZ vars e = .ok z → evalE F env e = some v → ZE.val d0 (pt env) z = v
  | .name x, z, v, h, hv => by
    simp only [toZ] at h
    split at h
    · injection h with h; subst h
      simp only [evalE] at hv
      simp [ZE.val, pt, hv]
    · cases h
  | .const c, z, v, h, hv => by
    injection h with h; subst h
    simp only [evalE] at hv
    injection hv
  | .neg a, z, v, h, hv => by
    obtain ⟨z', h1, rfl⟩ := (map_ok_iff _ _ _).1 h
    simp only [evalE, Option.map_eq_some_iff] at hv
    obtain ⟨w, hw, rfl⟩ := hv
    simp only [ZE.val, toZ_val F d0 vars env a z' w h1 hw]
  | .pos a, z, v, h, hv => toZ_val F d0 vars env a z v h hv
  | .add a b, z, v, h, hv => by
    obtain ⟨z1, h1, h'⟩ := (bind_ok_iff _ _ _).1 h
    obtain ⟨z2, h2, rfl⟩ := (map_ok_iff _ _ _).1 h'
    simp only [evalE, Option.bind_eq_some_iff, Option.map_eq_some_iff] at hv
    obtain ⟨w1, hw1, w2, hw2, rfl⟩ := hv
    simp only [ZE.val, toZ_val F d0 vars env a z1 w1 h1 hw1, toZ_val F d0 vars env b z2 w2 h2 hw2]
  | .sub a b, z, v, h, hv => by
    obtain ⟨z1, h1, h'⟩ := (bind_ok_iff _ _ _).1 h
    obtain ⟨z2, h2, rfl⟩ := (map_ok_iff _ _ _).1 h'
    simp only [evalE, Option.bind_eq_some_iff, Option.map_eq_some_iff] at hv
    obtain ⟨w1, hw1, w2, hw2, rfl⟩ := hv
    simp only [ZE.val, toZ_val F d0 vars env a z1 w1 h1 hw1, toZ_val F d0 vars env b z2 w2 h2 hw2]
  | .mul a b, z, v, h, hv => by
    obtain ⟨z1, h1, h'⟩ := (bind_ok_iff _ _ _).1 h
    obtain ⟨z2, h2, rfl⟩ := (map_ok_iff _ _ _).1 h'
    simp only [evalE, Option.bind_eq_some_iff, Option.map_eq_some_iff] at hv
    obtain ⟨w1, hw1, w2, hw2, rfl⟩ := hv
    simp only [ZE.val, toZ_val F d0 vars env a z1 w1 h1 hw1, toZ_val F d0 vars env b z2 w2 h2 hw2]
  | .div a b, z, v, h, hv => by
    obtain ⟨z1, h1, h'⟩ := (bind_ok_iff _ _ _).1 h
    obtain ⟨z2, h2, rfl⟩ := (map_ok_iff _ _ _).1 h'
    simp only [evalE, Option.bind_eq_some_iff] at hv
    obtain ⟨w1, hw1, w2, hw2, hd⟩ := hv
    split at hd
    · cases hd
    · next h0 =>
      injection hd with hd; subst hd
      simp only [ZE.val, toZ_val F d0 vars env a z1 w1 h1 hw1, toZ_val F d0 vars env b z2 w2 h2 hw2, if_neg h0]
  | .call1 _ _, z, v, h, hv => by cases h
  | .call2 _ _ _, z, v, h, hv => by cases h

/-- For unchained conditions the formula agrees with Python whenever Python raises no exception. -/
theorem toZC_holds (F : Funs K) (d0 : K → K) (vars : List String) (env : Env K) : ∀ (c : PC K) (f : ZF K) (b : Bool), Unchained c →
    toZC vars c = .ok f → evalC F env c = some b → (ZF.Holds d0 (pt env) f ↔ b = true)
  | .cmp l ops, f, b, hu, h, hb => by
    match ops, hu with
    | [(op, e)], _ =>
      simp only [toZC] at h
      obtain ⟨zl, hl, h'⟩ := (bind_ok_iff _ _ _).1 h
      obtain ⟨r, hr, h''⟩ := (bind_ok_iff _ _ _).1 h'
      simp only [cmpLoop] at hr
      obtain ⟨ze, he, hr'⟩ := (bind_ok_iff _ _ _).1 hr
      injection hr' with hr'; subst hr'
      injection h'' with h''; subst h''
      simp only [evalC, evalChain, Option.bind_eq_some_iff] at hb
      obtain ⟨v, hv, w, hw, hb⟩ := hb
      simp only [ZF.Holds, toZ_val F d0 vars env l zl v hl hv, toZ_val F d0 vars env e ze w he hw]
      split at hb
      · next ht => injection hb with hb; subst hb; simp [ht]
      · next ht => injection hb with hb; subst hb; simp [ht]
  | .and a c, f, b, hu, h, hb => by
    obtain ⟨z1, h1, h'⟩ := (bind_ok_iff _ _ _).1 h
    obtain ⟨z2, h2, rfl⟩ := (map_ok_iff _ _ _).1 h'
    simp only [evalC, Option.bind_eq_some_iff] at hb
    obtain ⟨x, hx, hb⟩ := hb
    have i1 := toZC_holds F d0 vars env a z1 x hu.1 h1 hx
    simp only [ZF.Holds, i1]
    cases x with
    | true => simpa using toZC_holds F d0 vars env c z2 b hu.2 h2 hb
    | false => simp at hb; simp [← hb]
  | .or a c, f, b, hu, h, hb => by
    obtain ⟨z1, h1, h'⟩ := (bind_ok_iff _ _ _).1 h
    obtain ⟨z2, h2, rfl⟩ := (map_ok_iff _ _ _).1 h'
    simp only [evalC, Option.bind_eq_some_iff] at hb
    obtain ⟨x, hx, hb⟩ := hb
    have i1 := toZC_holds F d0 vars env a z1 x hu.1 h1 hx
    simp only [ZF.Holds, i1]
    cases x with
    | false => simpa using toZC_holds F d0 vars env c z2 b hu.2 h2 hb
    | true => simp at hb; simp [hb]
  | .not a, f, b, hu, h, hb => by
    obtain ⟨z1, h1, rfl⟩ := (map_ok_iff _ _ _).1 h
    simp only [evalC, Option.map_eq_some_iff] at hb
    obtain ⟨x, hx, rfl⟩ := hb
    simp only [ZF.Holds, toZC_holds F d0 vars env a z1 x hu h1 hx]
    cases x <;> simp
  | .other, f, b, hu, h, hb => by cases h

theorem conj_holds (d0 : K → K) (x : String → K) : ∀ (l : List (ZF K)), (∀ f ∈ l, ZF.Holds d0 x f) → ZF.Holds d0 x (conj l)
  | [], _ => trivial
  | [a], h => h a (by simp)
  | a :: b :: l, h => ⟨h a (by simp), conj_holds d0 x (b :: l) fun f hf => h f (by simp [hf])⟩

theorem constrain_some (opt : Opt K) (ho : OptCorrect opt) (box : Dict String (K × K)) (f : ZF K) (d0 : K → K) (x : String → K)
    (hx : InNamedBox box x) (hf : ZF.Holds d0 x f) :
    ∃ b, constrain opt box f = some b ∧ InNamedBox b x ∧ b.map Prod.fst = box.map Prod.fst := by
  unfold constrain
  have : ∀ l : List String, (∀ n ∈ l, n ∈ box.map Prod.fst) → ∃ b : Dict String (K × K),
      (l.mapM fun n => (opt true box f n).bind fun lo => (opt false box f n).map fun hi => (n, (lo, hi))) = some b ∧
        InNamedBox b x ∧ b.map Prod.fst = l := by
    intro l
    induction l with
    | nil => intro _; exact ⟨[], rfl, by simp [InNamedBox], rfl⟩
    | cons n l ih =>
      intro hl
      obtain ⟨b, h1, h2, h3⟩ := ih fun m hm => hl m (by simp [hm])
      obtain ⟨lo, hlo, hlo'⟩ := ho.lower box f n d0 x (hl n (by simp)) hx hf
      obtain ⟨hi, hhi, hhi'⟩ := ho.upper box f n d0 x (hl n (by simp)) hx hf
      refine ⟨(n, (lo, hi)) :: b, ?_, ?_, by simp [h3]⟩
      · rw [List.mapM_cons, h1, hlo, hhi]; rfl
      · intro p hp
        rcases List.mem_cons.1 hp with rfl | hp
        · exact ⟨hlo', hhi'⟩
        · exact h2 p hp
  exact this _ fun n hn => hn

/-- The branches after the position reached: the branch taken is among the results, with bounds that contain the point. -/
theorem chain_covered (F : Funs K) (opt : Opt K) (ho : OptCorrect opt) (d0 : K → K) (vars : List String) (env : Env K)
    (box : Dict String (K × K)) (hbox : InNamedBox box (pt env)) {c : PC K} {body orelse : List (PS K)} {outs : List (PE K)}
    (hch : IfChain c body orelse outs) : ∀ (n : Nat) (l : List (Option (ZF K) × PE K)), chainLoop vars n c body orelse = .ok l →
    ∀ (neg : List (ZF K)), (∀ f ∈ neg, ZF.Holds d0 (pt env) f) → ∀ v, exec F env (.ifS c body orelse) = some (.inl v) →
    ∃ r ∈ piecesLoop opt box neg l, InNamedBox r.1 (pt env) ∧ r.1.map Prod.fst = box.map Prod.fst ∧ evalE F env r.2 = some v ∧ r.2 ∈ outs := by
  induction hch with
  | last c e e' r r' hc =>
    intro n l hl neg hneg v hv
    cases n with
    | zero => cases hl
    | succ n =>
      simp only [chainLoop, extractReturn] at hl
      obtain ⟨z, hz, h'⟩ := (bind_ok_iff _ _ _).1 hl
      simp only [Except.bind, Except.map] at h'
      injection h' with h'; subst h'
      simp only [exec, Option.bind_eq_some_iff] at hv
      obtain ⟨b, hb, hv⟩ := hv
      have hiff := toZC_holds F d0 vars env c z b hc hz hb
      cases b with
      | true =>
        obtain ⟨bb, h1, h2, h3⟩ := constrain_some opt ho box z d0 (pt env) hbox (hiff.2 rfl)
        simp only [if_true, execL, exec, Option.bind_eq_some_iff, Option.map_eq_some_iff] at hv
        obtain ⟨_, ⟨w, hw, rfl⟩, hv⟩ := hv
        injection hv with hv; injection hv with hv; subst hv
        refine ⟨(bb, e), ?_, h2, h3, hw, by simp⟩
        simp [piecesLoop, h1]
      | false =>
        have hn : ZF.Holds d0 (pt env) (conj (neg ++ [.not z])) := conj_holds d0 _ _ (by
          intro f hf
          rcases List.mem_append.1 hf with hf | hf
          · exact hneg f hf
          · rw [List.mem_singleton.1 hf]; exact fun h => by simpa using hiff.1 h)
        obtain ⟨bb, h1, h2, h3⟩ := constrain_some opt ho box _ d0 (pt env) hbox hn
        simp only [Bool.false_eq_true, if_false, execL, exec, Option.bind_eq_some_iff, Option.map_eq_some_iff] at hv
        obtain ⟨_, ⟨w, hw, rfl⟩, hv⟩ := hv
        injection hv with hv; injection hv with hv; subst hv
        refine ⟨(bb, e'), ?_, h2, h3, hw, by simp⟩
        simp [piecesLoop, h1]
  | step c c' e r b' o' outs hc h ih =>
    intro n l hl neg hneg v hv
    cases n with
    | zero => cases hl
    | succ n =>
      simp only [chainLoop, extractReturn] at hl
      obtain ⟨z, hz, h'⟩ := (bind_ok_iff _ _ _).1 hl
      simp only [Except.bind] at h'
      obtain ⟨l', hl', rfl⟩ := (map_ok_iff _ _ _).1 h'
      have hv0 := hv
      simp only [exec, Option.bind_eq_some_iff] at hv
      obtain ⟨b, hb, hv⟩ := hv
      have hiff := toZC_holds F d0 vars env c z b hc hz hb
      cases b with
      | true =>
        obtain ⟨bb, h1, h2, h3⟩ := constrain_some opt ho box z d0 (pt env) hbox (hiff.2 rfl)
        simp only [if_true, execL, exec, Option.bind_eq_some_iff, Option.map_eq_some_iff] at hv
        obtain ⟨_, ⟨w, hw, rfl⟩, hv⟩ := hv
        injection hv with hv; injection hv with hv; subst hv
        refine ⟨(bb, e), ?_, h2, h3, hw, by simp⟩
        simp [piecesLoop, h1]
      | false =>
        simp only [Bool.false_eq_true, if_false, execL, Option.bind_eq_some_iff] at hv
        obtain ⟨s, hs, hv⟩ := hv
        have hs' : exec F env (.ifS c' b' o') = some (.inl v) := by
          cases s with
          | inl w => dsimp only at hv; rw [hs]; exact hv
          | inr env' => simp at hv
        obtain ⟨q, hq, q1, q2, q3, q4⟩ := ih n l' hl' (neg ++ [.not z]) (by
          intro f hf
          rcases List.mem_append.1 hf with hf | hf
          · exact hneg f hf
          · rw [List.mem_singleton.1 hf]; exact fun h => by simpa using hiff.1 h) v hs'
        refine ⟨q, ?_, q1, q2, q3, by simp [q4]⟩
        simp only [piecesLoop]
        exact List.mem_append_right _ hq

theorem foldl_minmax (bs : List (K × K)) : ∀ (m M : K), (bs.foldl (fun m x => min m (min x.1 x.2)) m ≤ m ∧ ∀ x ∈ bs, bs.foldl (fun m x => min m (min x.1 x.2)) m ≤ x.1) ∧
    (M ≤ bs.foldl (fun m x => max m (max x.1 x.2)) M ∧ ∀ x ∈ bs, x.2 ≤ bs.foldl (fun m x => max m (max x.1 x.2)) M) := by
  induction bs with
  | nil => intro m M; simp
  | cons b bs ih =>
    intro m M
    obtain ⟨⟨a1, a2⟩, a3, a4⟩ := ih (min m (min b.1 b.2)) (max M (max b.1 b.2))
    simp only [List.foldl_cons]
    refine ⟨⟨a1.trans (min_le_left _ _), ?_⟩, (le_max_left _ _).trans a3, ?_⟩
    · intro x hx
      rcases List.mem_cons.1 hx with rfl | hx
      · exact a1.trans ((min_le_right _ _).trans (min_le_left _ _))
      · exact a2 x hx
    · intro x hx
      rcases List.mem_cons.1 hx with rfl | hx
      · exact ((le_max_right _ _).trans (le_max_right _ _)).trans a3
      · exact a4 x hx

theorem hull_covers (bs r : List (K × K)) (h : hull bs = .ok r) (v : K) (hv : InSome bs v) : InSome r v := by
  cases bs with
  | nil => cases h
  | cons b bs =>
    injection h with h; subst h
    obtain ⟨⟨a1, a2⟩, a3, a4⟩ := foldl_minmax bs (min b.1 b.2) (max b.1 b.2)
    refine ⟨_, List.mem_singleton_self _, ?_⟩
    obtain ⟨iv, hiv, h1, h2⟩ := hv
    rcases List.mem_cons.1 hiv with rfl | hiv
    · exact ⟨(a1.trans (min_le_left _ _)).trans h1, h2.trans ((le_max_right _ _).trans a3)⟩
    · exact ⟨(a2 iv hiv).trans h1, h2.trans (a4 iv hiv)⟩

/-! ### Dictionaries made from two lists -/

theorem zipDict_eq {V : Type} : ∀ (args : List String) (combo : List V) (d : Dict String V), args.Nodup → args.length = combo.length →
    (∀ a ∈ args, a ∉ d.map Prod.fst) → (args.zip combo).foldl (fun d p => Dict.set d p.1 p.2) d = d ++ args.zip combo
  | [], combo, d, _, _, _ => by simp
  | a :: args, [], d, _, h, _ => by simp at h
  | a :: args, c :: combo, d, hn, hl, hd => by
    rw [List.nodup_cons] at hn
    have hset : ∀ d : Dict String V, a ∉ d.map Prod.fst → Dict.set d a c = d ++ [(a, c)] := by
      intro d
      induction d with
      | nil => intro _; rfl
      | cons q d ih =>
        intro h
        simp only [List.map_cons, List.mem_cons, not_or] at h
        rw [Dict.set, if_neg (fun e => h.1 e.symm), ih h.2]
        rfl
    rw [List.zip_cons_cons, List.foldl_cons, hset d (hd a (by simp)), zipDict_eq args combo _ hn.2 (by simpa using hl)]
    · simp
    · intro b hb
      simp only [List.map_append, List.map_cons, List.map_nil, List.mem_append, List.mem_singleton, not_or]
      exact ⟨hd b (by simp [hb]), fun e => hn.1 (e ▸ hb)⟩

theorem zipDict_nodup {V : Type} (args : List String) (combo : List V) (hn : args.Nodup) (hl : args.length = combo.length) :
    zipDict args combo = args.zip combo := by
  unfold zipDict
  rw [zipDict_eq args combo [] hn hl (by simp)]
  rfl

theorem lookupAll_ok (cur : Bounds K) (args : List String) (bl : List (List (K × K))) (h : lookupAll cur args = .ok bl) :
    List.Forall₂ (fun a l => Dict.get? cur a = some l) args bl := by
  unfold lookupAll at h
  have h' := (mapM_ok_iff _ _ _).1 h
  refine h'.imp ?_
  intro a l hal
  split at hal
  · next l' hl' => injection hal with e; rw [hl', e]
  · cases hal

theorem get?_zip {V : Type} : ∀ (ks : List String) (vs : List V), ks.Nodup → ks.length = vs.length →
    List.Forall₂ (fun k v => Dict.get? (ks.zip vs) k = some v) ks vs
  | [], [], _, _ => .nil
  | [], _ :: _, _, h => by simp at h
  | _ :: _, [], _, h => by simp at h
  | k :: ks, v :: vs, hn, hl => by
    rw [List.nodup_cons] at hn
    refine .cons ?_ ?_
    · rw [List.zip_cons_cons, Dict.get?_cons, if_pos rfl]
    · have ih := get?_zip ks vs hn.2 (by simpa using hl)
      refine forall₂_imp_left ih ?_
      intro a ha b hab
      rw [List.zip_cons_cons, Dict.get?_cons, if_neg (fun e : k = a => hn.1 (e ▸ ha)), hab]

/-! ### The optimizer that answers with the box -/

theorem looseOpt_correct : OptCorrect (looseOpt : Opt K) := by
  have hg : ∀ (box : Dict String (K × K)) n, n ∈ box.map Prod.fst → ∃ b, Dict.get? box n = some b := by
    intro box n hn
    cases hc : Dict.get? box n with
    | some b => exact ⟨b, rfl⟩
    | none => exact absurd hn ((Dict.get?_none_iff _ _).1 hc)
  refine ⟨?_, ?_, ?_⟩
  · intro box f n d0 x hn hx hf
    obtain ⟨b, hb⟩ := hg box n hn
    refine ⟨b.1, ?_, (hx _ (Dict.mem_of_get? hb)).1⟩
    rw [looseOpt, if_pos ⟨d0, x, hx, hf⟩, hb]; rfl
  · intro box f n d0 x hn hx hf
    obtain ⟨b, hb⟩ := hg box n hn
    refine ⟨b.2, ?_, (hx _ (Dict.mem_of_get? hb)).2⟩
    rw [looseOpt, if_pos ⟨d0, x, hx, hf⟩, hb]; rfl
  · intro m box f n h
    rw [looseOpt, if_neg]
    rintro ⟨d0, x, hx, hf⟩
    exact h d0 x hx hf

/-! ### Calls -/

theorem execL_skips (F : Funs K) (env : Env K) : ∀ (pre rest : List (PS K)), (∀ s ∈ pre, s = .skip) → execL F env (pre ++ rest) = execL F env rest
  | [], rest, _ => rfl
  | s :: pre, rest, h => by
    rw [h s (by simp), List.cons_append, execL, exec]
    exact execL_skips F env pre rest fun s hs => h s (by simp [hs])

theorem findIf_skips (c : PC K) (b o post : List (PS K)) : ∀ (pre : List (PS K)), (∀ s ∈ pre, s = .skip) →
    findIf (pre ++ .ifS c b o :: post) = some (c, b, o)
  | [], _ => rfl
  | s :: pre, h => by
    rw [h s (by simp), List.cons_append, findIf]
    · exact findIf_skips c b o post pre fun s hs => h s (by simp [hs])
    · intro c' b' o' e; cases e

/-- An `if` chain returns or raises an exception. -/
theorem chain_returns (F : Funs K) (env : Env K) {c : PC K} {b o : List (PS K)} {outs : List (PE K)} (h : IfChain c b o outs) (env' : Env K) :
    exec F env (.ifS c b o) ≠ some (.inr env') := by
  induction h with
  | last c e e' r r' _ =>
    simp only [exec, ne_eq, Option.bind_eq_some_iff, not_exists, not_and]
    intro b _
    cases b
    · simp only [Bool.false_eq_true, if_false, execL, exec]
      cases evalE F env e' <;> simp
    · simp only [if_true, execL, exec]
      cases evalE F env e <;> simp
  | step c c' e r b' o' outs _ _ ih =>
    rw [exec]
    simp only [ne_eq, Option.bind_eq_some_iff, not_exists, not_and]
    intro b _
    cases b
    · simp only [Bool.false_eq_true, if_false, execL]
      cases hc : exec F env (.ifS c' b' o') with
      | none => simp
      | some s =>
        cases s with
        | inl v => simp
        | inr e1 =>
          intro hh
          simp at hh
          exact ih (by rw [hc, hh])
    · simp only [if_true, execL, exec]
      cases evalE F env e <;> simp

theorem handlePiecewise_covers (F : Funs K) (opt : Opt K) (ho : OptCorrect opt) (eb : EB K) (f : PFun K) (hn : f.params.Nodup)
    (pre post b o : List (PS K)) (c : PC K) (outs : List (PE K)) (hpre : ∀ s ∈ pre, s = .skip) (hbody : f.body = pre ++ .ifS c b o :: post)
    (hch : IfChain c b o outs) (heb : ∀ e ∈ outs, ExprSound F eb e) (cur : Bounds K) (r : List (K × K))
    (h : handlePiecewise opt eb f f.params cur = .ok r) (vals : List K)
    (hv : List.Forall₂ (fun a v => ∃ l, Dict.get? cur a = some l ∧ InSome l v) f.params vals) (v : K) (hcall : callFn F f vals = some v) :
    InSome r v := by
  obtain ⟨bl, hbl, h⟩ := (bind_ok_iff _ _ _).1 h
  obtain ⟨parsed, hp, h⟩ := (bind_ok_iff _ _ _).1 h
  obtain ⟨all, hall, h⟩ := (bind_ok_iff _ _ _).1 h
  have hbl := lookupAll_ok _ _ _ hbl
  have hall := (mapM_ok_iff _ _ _).1 hall
  -- the combination that contains the arguments
  obtain ⟨combo, hcm, hcv⟩ : ∃ combo ∈ product bl, List.Forall₂ (fun (iv : K × K) w => iv.1 ≤ w ∧ w ≤ iv.2) combo vals := by
    have : ∀ (ps : List String) (vs : List K) (bl : List (List (K × K))), List.Forall₂ (fun a v => ∃ l, Dict.get? cur a = some l ∧ InSome l v) ps vs →
        List.Forall₂ (fun a l => Dict.get? cur a = some l) ps bl →
        ∃ combo, List.Forall₂ (fun x l => x ∈ l) combo bl ∧ List.Forall₂ (fun (iv : K × K) w => iv.1 ≤ w ∧ w ≤ iv.2) combo vs := by
      intro ps vs bl h1
      induction h1 generalizing bl with
      | nil => intro h2; cases h2; exact ⟨[], .nil, .nil⟩
      | cons h1 _ ih =>
        intro h2
        cases h2 with
        | cons h2 h2' =>
          obtain ⟨combo, a1, a2⟩ := ih _ h2'
          obtain ⟨l, e, iv, hiv, hh⟩ := h1
          rw [h2] at e; injection e with e; subst e
          exact ⟨iv :: combo, .cons hiv a1, .cons hh a2⟩
    obtain ⟨combo, a1, a2⟩ := this _ _ _ hv hbl
    exact ⟨combo, (mem_product _ _).2 a1, a2⟩
  obtain ⟨cb, hcbm, hcb⟩ := forall₂_mem_left hall hcm
  obtain ⟨pieces, hpc, rfl⟩ := (map_ok_iff _ _ _).1 hcb
  have hpc := (mapM_ok_iff _ _ _).1 hpc
  have hlen : f.params.length = vals.length := hv.length_eq
  have hlen2 : f.params.length = combo.length := by rw [hlen, hcv.length_eq]
  rw [zipDict_nodup _ _ hn hlen2] at hpc
  obtain ⟨env, henv⟩ : ∃ env, env = f.params.zip vals := ⟨_, rfl⟩
  have hgv := get?_zip f.params vals hn hlen
  rw [← henv] at hgv
  have hbox : InNamedBox (f.params.zip combo) (pt env) := by
    have : ∀ (ps : List String) (cs : List (K × K)) (vs : List K), List.Forall₂ (fun k v => Dict.get? env k = some v) ps vs →
        List.Forall₂ (fun (iv : K × K) w => iv.1 ≤ w ∧ w ≤ iv.2) cs vs → InNamedBox (ps.zip cs) (pt env) := by
      intro ps cs vs h1
      induction h1 generalizing cs with
      | nil => intro _; simp [InNamedBox]
      | cons h1 _ ih =>
        intro h2
        cases h2 with
        | cons h2 h2' =>
          intro p hp
          rcases List.mem_cons.1 hp with rfl | hp
          · simpa [pt, h1] using h2
          · exact ih _ h2' p hp
    exact this _ _ _ hgv hcv
  -- the value is that of the chain
  have hex : exec F env (.ifS c b o) = some (.inl v) := by
    unfold callFn at hcall
    rw [if_neg (by rw [hlen]; simp), hbody, execL_skips F _ pre _ hpre, ← henv, execL] at hcall
    cases hc : exec F env (.ifS c b o) with
    | none => rw [hc] at hcall; cases hcall
    | some s =>
      cases s with
      | inl w => rw [hc] at hcall; simp at hcall; rw [hcall]
      | inr e1 => exact absurd hc (chain_returns F env hch e1)
  have hp' : chainLoop f.params (chainDepth o + 1) c b o = .ok parsed := by
    rw [parsePiecewise, hbody, findIf_skips c b o post pre hpre] at hp
    exact hp
  obtain ⟨q, hq, q1, q2, q3, q4⟩ := chain_covered F opt ho (fun _ => 0) f.params env _ hbox hch _ _ hp' [] (by simp) v hex
  obtain ⟨l, hlm, hl⟩ := forall₂_mem_left hpc hq
  have hin : InSome l v := heb q.2 q4 _ _ hl env v (by
    refine ⟨?_, ?_⟩
    case refine_2 =>
      intro n w hw
      rw [List.map_map]
      change n ∈ q.1.map Prod.fst
      rw [q2, List.map_fst_zip hlen2.le, ← List.map_fst_zip hlen.le, ← henv]
      exact List.mem_map_of_mem (Dict.mem_of_get? hw)
    intro p hp
    obtain ⟨p', hp', rfl⟩ := List.mem_map.1 hp
    have hk : p'.1 ∈ f.params := by
      have : p'.1 ∈ q.1.map Prod.fst := List.mem_map_of_mem hp'
      rw [q2, List.map_fst_zip hlen2.le] at this
      exact this
    obtain ⟨w, _, hw⟩ := forall₂_mem_left hgv hk
    refine ⟨w, hw, p'.2, List.mem_singleton_self _, ?_⟩
    have := q1 p' hp'
    simpa [pt, hw] using this) q3
  refine hull_covers _ _ h v ?_
  obtain ⟨iv, hiv, hh⟩ := hin
  exact ⟨iv, List.mem_flatten.2 ⟨_, hcbm, List.mem_flatten.2 ⟨_, hlm, hiv⟩⟩, hh⟩

end Verif.Pw
