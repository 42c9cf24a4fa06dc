import Verif.Spec.Python
import Verif.Spec.Decision
import Verif.Model.Parser
import Verif.Spec.Naming
import Verif.Proofs.Basic

/-! Free names, substitution and their semantics. -/

set_option autoImplicit false

namespace Verif.Py

variable {V : Type}

theorem upd_self (σ : Store V) (x : String) : upd σ x (σ x) = σ := by
  funext n; unfold upd; split
  · subst_vars; rfl
  · rfl

theorem upd_eq (σ : Store V) (x : String) (v : V) : upd σ x v x = v := by simp [upd]

theorem upd_ne (σ : Store V) (x n : String) (v : V) (h : n ≠ x) : upd σ x v n = σ n := by simp [upd, h]

theorem upd_agree {σ τ : Store V} {n x : String} (v : V) (h : n ≠ x → σ n = τ n) : upd σ x v n = upd τ x v n := by
  unfold upd; split
  · rfl
  · rename_i hn; exact h hn

mutual
theorem eval_congr (P : PyOps V) (σ τ : Store V) : (e : Expr V) → (∀ n, occurs n e = true → σ n = τ n) →
    eval P σ e = eval P τ e
  | .const _, _ => rfl
  | .str _, _ => rfl
  | .opaque, _ => rfl
  | .name m, h => by simp only [eval]; exact h m (by simp [occurs])
  | .hole m _, h => by simp only [eval]; exact h m (by simp [occurs])
  | .attr e _, h => by
    simp only [eval]; rw [eval_congr P σ τ e (fun n hn => h n (by simpa [occurs] using hn))]
  | .unary .not e, h => by
    simp only [eval]; rw [eval_congr P σ τ e (fun n hn => h n (by simpa [occurs] using hn))]
  | .unary (.other _) e, h => by
    simp only [eval]; rw [eval_congr P σ τ e (fun n hn => h n (by simpa [occurs] using hn))]
  | .binop _ l r, h => by
    simp only [eval]
    rw [eval_congr P σ τ l (fun n hn => h n (by simp [occurs, hn])), eval_congr P σ τ r (fun n hn => h n (by simp [occurs, hn]))]
  | .boolop .and es, h => by
    simp only [eval]; exact evalAnd_congr P σ τ es (fun n hn => h n (by simpa [occurs] using hn))
  | .boolop .or es, h => by
    simp only [eval]; exact evalOr_congr P σ τ es (fun n hn => h n (by simpa [occurs] using hn))
  | .compare l rest, h => by
    simp only [eval]
    rw [eval_congr P σ τ l (fun n hn => h n (by simp [occurs, hn])), evalCmps_congr P σ τ rest (fun n hn => h n (by simp [occurs, hn]))]
  | .call f args, h => by
    simp only [eval]
    rw [h f (by simp [occurs]), evalList_congr P σ τ args (fun n hn => h n (by simp [occurs, hn]))]
  | .mcall o f args, h => by
    simp only [eval]
    rw [h o (by simp [occurs]), evalList_congr P σ τ args (fun n hn => h n (by simp [occurs, hn]))]
  | .gen op elt x iter ifs, h => by
    simp only [eval]
    rw [eval_congr P σ τ iter (fun n hn => h n (by simp [occurs, hn]))]
    have h1 : (fun v => evalAll P (upd σ x v) ifs) = fun v => evalAll P (upd τ x v) ifs := by
      funext v
      exact evalAll_congr P _ _ ifs (fun n hn => upd_agree v (fun hx => h n (by simp [occurs, hn, hx])))
    have h2 : (fun v => eval P (upd σ x v) elt) = fun v => eval P (upd τ x v) elt := by
      funext v
      exact eval_congr P _ _ elt (fun n hn => upd_agree v (fun hx => h n (by simp [occurs, hn, hx])))
    rw [h1, h2]
  | .red op e x value, h => by
    simp only [eval]
    rw [eval_congr P σ τ value (fun n hn => h n (by simp [occurs, hn]))]
    have h2 : (fun v => eval P (upd σ x v) e) = fun v => eval P (upd τ x v) e := by
      funext v
      exact eval_congr P _ _ e (fun n hn => upd_agree v (fun hx => h n (by simp [occurs, hn, hx])))
    rw [h2]
  | .ifexp t b o, h => by
    simp only [eval]
    rw [eval_congr P σ τ t (fun n hn => h n (by simp [occurs, hn])), eval_congr P σ τ b (fun n hn => h n (by simp [occurs, hn])),
      eval_congr P σ τ o (fun n hn => h n (by simp [occurs, hn]))]
theorem evalAnd_congr (P : PyOps V) (σ τ : Store V) : (es : Exprs V) → (∀ n, occursL n es = true → σ n = τ n) →
    evalAnd P σ es = evalAnd P τ es
  | .nil, _ => rfl
  | .cons e .nil, h => by
    simp only [evalAnd]; exact eval_congr P σ τ e (fun n hn => h n (by simp [occursL, hn]))
  | .cons e (.cons e' es), h => by
    simp only [evalAnd]
    rw [eval_congr P σ τ e (fun n hn => h n (by simp [occursL, hn])),
      evalAnd_congr P σ τ (.cons e' es) (fun n hn => h n (by rw [occursL, hn]; simp))]
theorem evalOr_congr (P : PyOps V) (σ τ : Store V) : (es : Exprs V) → (∀ n, occursL n es = true → σ n = τ n) →
    evalOr P σ es = evalOr P τ es
  | .nil, _ => rfl
  | .cons e .nil, h => by
    simp only [evalOr]; exact eval_congr P σ τ e (fun n hn => h n (by simp [occursL, hn]))
  | .cons e (.cons e' es), h => by
    simp only [evalOr]
    rw [eval_congr P σ τ e (fun n hn => h n (by simp [occursL, hn])),
      evalOr_congr P σ τ (.cons e' es) (fun n hn => h n (by rw [occursL, hn]; simp))]
theorem evalCmps_congr (P : PyOps V) (σ τ : Store V) : (r : Cmps V) → (∀ n, occursC n r = true → σ n = τ n) → {v : V} →
    evalCmps P σ v r = evalCmps P τ v r
  | .nil, _, _ => rfl
  | .cons op e rest, h, v => by
    simp only [evalCmps]
    rw [eval_congr P σ τ e (fun n hn => h n (by simp [occursC, hn])),
      evalCmps_congr P σ τ rest (fun n hn => h n (by simp [occursC, hn]))]
theorem evalList_congr (P : PyOps V) (σ τ : Store V) : (es : Exprs V) → (∀ n, occursL n es = true → σ n = τ n) →
    evalList P σ es = evalList P τ es
  | .nil, _ => rfl
  | .cons e es, h => by
    simp only [evalList]
    rw [eval_congr P σ τ e (fun n hn => h n (by simp [occursL, hn])),
      evalList_congr P σ τ es (fun n hn => h n (by simp [occursL, hn]))]
theorem evalAll_congr (P : PyOps V) (σ τ : Store V) : (es : Exprs V) → (∀ n, occursL n es = true → σ n = τ n) →
    evalAll P σ es = evalAll P τ es
  | .nil, _ => rfl
  | .cons e es, h => by
    simp only [evalAll]
    rw [eval_congr P σ τ e (fun n hn => h n (by simp [occursL, hn])),
      evalAll_congr P σ τ es (fun n hn => h n (by simp [occursL, hn]))]
end

/-! ### substitution -/

/-- The store in which the substituted names have the values of their replacements. -/
def substStore (P : PyOps V) (ν : Store V) (s : Dict String (Expr V)) : Store V := fun n =>
  match Dict.get? s n with
  | some a => eval P ν a
  | none => ν n

theorem substStore_upd (P : PyOps V) (ν : Store V) (s : Dict String (Expr V)) (x : String) (v : V)
    (h : ∀ n a, Dict.get? s n = some a → x ≠ n ∧ occurs x a = false) :
    substStore P (upd ν x v) s = upd (substStore P ν s) x v := by
  funext n
  cases hs : Dict.get? s n with
  | none => simp only [upd, substStore, hs]
  | some a =>
    obtain ⟨h1, h2⟩ := h n a hs
    have : n ≠ x := fun e => h1 e.symm
    simp only [upd, substStore, this, if_false, hs]
    refine eval_congr P _ _ a (fun m hm => ?_)
    have : m ≠ x := by rintro rfl; simp [h2] at hm
    exact upd_ne _ _ _ _ this

/-- No capture: replaced names do not occur as plain names and are not bound; binders are not free in the replacements. -/
def NoCap (s : Dict String (Expr V)) (raw bnd : String → Bool) : Prop :=
  ∀ n a, Dict.get? s n = some a → raw n = false ∧ ∀ y, bnd y = true → y ≠ n ∧ occurs y a = false

theorem NoCap.mono {s : Dict String (Expr V)} {r r' b b' : String → Bool} (h : NoCap s r b)
    (hr : ∀ n, r' n = true → r n = true) (hb : ∀ n, b' n = true → b n = true) : NoCap s r' b' := by
  intro n a hs
  obtain ⟨h1, h2⟩ := h n a hs
  refine ⟨?_, fun y hy => h2 y (hb y hy)⟩
  cases hx : r' n with
  | false => rfl
  | true => rw [hr n hx] at h1; exact h1

theorem NoCap.at {s : Dict String (Expr V)} {r b : String → Bool} (h : NoCap s r b) {x : String} (hx : b x = true) :
    ∀ n a, Dict.get? s n = some a → x ≠ n ∧ occurs x a = false := fun n a hs => (h n a hs).2 x hx

theorem NoCap.raw {s : Dict String (Expr V)} {r b : String → Bool} (h : NoCap s r b) {n : String} (hn : r n = true) :
    Dict.get? s n = none := by
  cases hs : Dict.get? s n with
  | none => rfl
  | some a => have := (h n a hs).1; rw [hn] at this; cases this

mutual
theorem subst_eval (P : PyOps V) (s : Dict String (Expr V)) : (e : Expr V) → (ν : Store V) →
    NoCap s (rawOcc · e) (binds · e) → eval P ν (subst s e) = eval P (substStore P ν s) e
  | .const _, _, _ => rfl
  | .str _, _, _ => rfl
  | .opaque, _, _ => rfl
  | .name m, ν, h => by
    simp only [subst, eval, substStore]
    rw [h.raw (n := m) (by simp [rawOcc])]
  | .hole m t, ν, h => by
    simp only [subst, eval, substStore]
    cases Dict.get? s m <;> simp [eval]
  | .attr e _, ν, h => by
    simp only [subst, eval]; rw [subst_eval P s e ν (h.mono (by simp [rawOcc]) (by simp [binds]))]
  | .unary .not e, ν, h => by
    simp only [subst, eval]; rw [subst_eval P s e ν (h.mono (by simp [rawOcc]) (by simp [binds]))]
  | .unary (.other _) e, ν, h => by
    simp only [subst, eval]; rw [subst_eval P s e ν (h.mono (by simp [rawOcc]) (by simp [binds]))]
  | .binop _ l r, ν, h => by
    simp only [subst, eval]
    rw [subst_eval P s l ν (h.mono (by simp +contextual [rawOcc]) (by simp +contextual [binds])),
      subst_eval P s r ν (h.mono (by simp +contextual [rawOcc]) (by simp +contextual [binds]))]
  | .boolop .and es, ν, h => by
    simp only [subst, eval]; exact substs_evalAnd P s es ν (h.mono (by simp [rawOcc]) (by simp [binds]))
  | .boolop .or es, ν, h => by
    simp only [subst, eval]; exact substs_evalOr P s es ν (h.mono (by simp [rawOcc]) (by simp [binds]))
  | .compare l rest, ν, h => by
    simp only [subst, eval]
    rw [subst_eval P s l ν (h.mono (by simp +contextual [rawOcc]) (by simp +contextual [binds])),
      substC_eval P s rest ν (h.mono (by simp +contextual [rawOcc]) (by simp +contextual [binds]))]
  | .call f args, ν, h => by
    simp only [subst, eval]
    rw [substs_evalList P s args ν (h.mono (by simp +contextual [rawOcc]) (by simp +contextual [binds]))]
    have : substStore P ν s f = ν f := by unfold substStore; rw [h.raw (n := f) (by simp [rawOcc])]
    rw [this]
  | .mcall o f args, ν, h => by
    simp only [subst, eval]
    rw [substs_evalList P s args ν (h.mono (by simp +contextual [rawOcc]) (by simp +contextual [binds]))]
    have : substStore P ν s o = ν o := by unfold substStore; rw [h.raw (n := o) (by simp [rawOcc])]
    rw [this]
  | .gen op elt x iter ifs, ν, h => by
    have hx := h.at (x := x) (by simp [binds])
    simp only [subst, eval]
    rw [subst_eval P s iter ν (h.mono (by simp +contextual [rawOcc]) (by simp +contextual [binds]))]
    have h1 : (fun v => evalAll P (upd ν x v) (substs s ifs)) = fun v => evalAll P (upd (substStore P ν s) x v) ifs := by
      funext v
      rw [substs_evalAll P s ifs _ (h.mono (by simp +contextual [rawOcc]) (by simp +contextual [binds])), substStore_upd P ν s x v hx]
    have h2 : (fun v => eval P (upd ν x v) (subst s elt)) = fun v => eval P (upd (substStore P ν s) x v) elt := by
      funext v
      rw [subst_eval P s elt _ (h.mono (by simp +contextual [rawOcc]) (by simp +contextual [binds])), substStore_upd P ν s x v hx]
    rw [h1, h2]
  | .red op e x value, ν, h => by
    have hx := h.at (x := x) (by simp [binds])
    simp only [subst, eval]
    rw [subst_eval P s value ν (h.mono (by simp +contextual [rawOcc]) (by simp +contextual [binds]))]
    have h2 : (fun v => eval P (upd ν x v) (subst s e)) = fun v => eval P (upd (substStore P ν s) x v) e := by
      funext v
      rw [subst_eval P s e _ (h.mono (by simp +contextual [rawOcc]) (by simp +contextual [binds])), substStore_upd P ν s x v hx]
    rw [h2]
  | .ifexp t b o, ν, h => by
    simp only [subst, eval]
    rw [subst_eval P s t ν (h.mono (by simp +contextual [rawOcc]) (by simp +contextual [binds])),
      subst_eval P s b ν (h.mono (by simp +contextual [rawOcc]) (by simp +contextual [binds])),
      subst_eval P s o ν (h.mono (by simp +contextual [rawOcc]) (by simp +contextual [binds]))]
theorem substs_evalAnd (P : PyOps V) (s : Dict String (Expr V)) : (es : Exprs V) → (ν : Store V) →
    NoCap s (rawOccL · es) (bindsL · es) → evalAnd P ν (substs s es) = evalAnd P (substStore P ν s) es
  | .nil, _, _ => rfl
  | .cons e .nil, ν, h => by
    simp only [substs, evalAnd]
    exact subst_eval P s e ν (h.mono (by simp +contextual [rawOccL]) (by simp +contextual [bindsL]))
  | .cons e (.cons e' es), ν, h => by
    have ih := substs_evalAnd P s (.cons e' es) ν
      (h.mono (by intro n hn; rw [rawOccL, hn]; simp) (by intro n hn; rw [bindsL, hn]; simp))
    simp only [substs] at ih
    simp only [substs, evalAnd]
    rw [subst_eval P s e ν (h.mono (by simp +contextual [rawOccL]) (by simp +contextual [bindsL])), ih]
theorem substs_evalOr (P : PyOps V) (s : Dict String (Expr V)) : (es : Exprs V) → (ν : Store V) →
    NoCap s (rawOccL · es) (bindsL · es) → evalOr P ν (substs s es) = evalOr P (substStore P ν s) es
  | .nil, _, _ => rfl
  | .cons e .nil, ν, h => by
    simp only [substs, evalOr]
    exact subst_eval P s e ν (h.mono (by simp +contextual [rawOccL]) (by simp +contextual [bindsL]))
  | .cons e (.cons e' es), ν, h => by
    have ih := substs_evalOr P s (.cons e' es) ν
      (h.mono (by intro n hn; rw [rawOccL, hn]; simp) (by intro n hn; rw [bindsL, hn]; simp))
    simp only [substs] at ih
    simp only [substs, evalOr]
    rw [subst_eval P s e ν (h.mono (by simp +contextual [rawOccL]) (by simp +contextual [bindsL])), ih]
theorem substC_eval (P : PyOps V) (s : Dict String (Expr V)) : (r : Cmps V) → (ν : Store V) →
    NoCap s (rawOccC · r) (bindsC · r) → {v : V} → evalCmps P ν v (substC s r) = evalCmps P (substStore P ν s) v r
  | .nil, _, _, _ => rfl
  | .cons op e rest, ν, h, v => by
    simp only [substC, evalCmps]
    rw [subst_eval P s e ν (h.mono (by simp +contextual [rawOccC]) (by simp +contextual [bindsC])),
      substC_eval P s rest ν (h.mono (by simp +contextual [rawOccC]) (by simp +contextual [bindsC]))]
theorem substs_evalList (P : PyOps V) (s : Dict String (Expr V)) : (es : Exprs V) → (ν : Store V) →
    NoCap s (rawOccL · es) (bindsL · es) → evalList P ν (substs s es) = evalList P (substStore P ν s) es
  | .nil, _, _ => rfl
  | .cons e es, ν, h => by
    simp only [substs, evalList]
    rw [subst_eval P s e ν (h.mono (by simp +contextual [rawOccL]) (by simp +contextual [bindsL])),
      substs_evalList P s es ν (h.mono (by simp +contextual [rawOccL]) (by simp +contextual [bindsL]))]
theorem substs_evalAll (P : PyOps V) (s : Dict String (Expr V)) : (es : Exprs V) → (ν : Store V) →
    NoCap s (rawOccL · es) (bindsL · es) → evalAll P ν (substs s es) = evalAll P (substStore P ν s) es
  | .nil, _, _ => rfl
  | .cons e es, ν, h => by
    simp only [substs, evalAll]
    rw [subst_eval P s e ν (h.mono (by simp +contextual [rawOccL]) (by simp +contextual [bindsL])),
      substs_evalAll P s es ν (h.mono (by simp +contextual [rawOccL]) (by simp +contextual [bindsL]))]
end

mutual
theorem hasOpaque_subst (s : Dict String (Expr V)) : (e : Expr V) → hasOpaque e = true → hasOpaque (subst s e) = true
  | .const _, h => by simp [hasOpaque] at h
  | .str _, h => by simp [hasOpaque] at h
  | .name _, h => by simp [hasOpaque] at h
  | .hole _ _, h => by simp [hasOpaque] at h
  | .opaque, _ => rfl
  | .attr e _, h => by simp only [subst, hasOpaque] at *; exact hasOpaque_subst s e h
  | .unary _ e, h => by simp only [subst, hasOpaque] at *; exact hasOpaque_subst s e h
  | .binop _ l r, h => by
    simp only [subst, hasOpaque, Bool.or_eq_true] at *
    exact h.imp (hasOpaque_subst s l) (hasOpaque_subst s r)
  | .boolop _ es, h => by simp only [subst, hasOpaque] at *; exact hasOpaques_subst s es h
  | .compare l rest, h => by
    simp only [subst, hasOpaque, Bool.or_eq_true] at *
    exact h.imp (hasOpaque_subst s l) (hasOpaqueC_subst s rest)
  | .call _ args, h => by simp only [subst, hasOpaque] at *; exact hasOpaques_subst s args h
  | .mcall _ _ args, h => by simp only [subst, hasOpaque] at *; exact hasOpaques_subst s args h
  | .gen _ elt _ iter ifs, h => by
    simp only [subst, hasOpaque, Bool.or_eq_true] at *
    exact h.imp (Or.imp (hasOpaque_subst s elt) (hasOpaque_subst s iter)) (hasOpaques_subst s ifs)
  | .red _ e _ value, h => by
    simp only [subst, hasOpaque, Bool.or_eq_true] at *
    exact h.imp (hasOpaque_subst s e) (hasOpaque_subst s value)
  | .ifexp t b o, h => by
    simp only [subst, hasOpaque, Bool.or_eq_true] at *
    exact h.imp (Or.imp (hasOpaque_subst s t) (hasOpaque_subst s b)) (hasOpaque_subst s o)
theorem hasOpaques_subst (s : Dict String (Expr V)) : (es : Exprs V) → hasOpaques es = true → hasOpaques (substs s es) = true
  | .nil, h => by simp [hasOpaques] at h
  | .cons e es, h => by
    simp only [substs, hasOpaques, Bool.or_eq_true] at *
    exact h.imp (hasOpaque_subst s e) (hasOpaques_subst s es)
theorem hasOpaqueC_subst (s : Dict String (Expr V)) : (r : Cmps V) → hasOpaqueC r = true → hasOpaqueC (substC s r) = true
  | .nil, h => by simp [hasOpaqueC] at h
  | .cons _ e rest, h => by
    simp only [substC, hasOpaqueC, Bool.or_eq_true] at *
    exact h.imp (hasOpaque_subst s e) (hasOpaqueC_subst s rest)
end

mutual
/-- An opaque replacement of a name that occurs makes the result opaque. -/
theorem hasOpaque_subst_of_occurs (s : Dict String (Expr V)) (n : String) (a : Expr V) (hs : Dict.get? s n = some a)
    (ha : hasOpaque a = true) : (e : Expr V) → rawOcc n e = false → occurs n e = true → hasOpaque (subst s e) = true
  | .const _, _, h => by simp [occurs] at h
  | .str _, _, h => by simp [occurs] at h
  | .opaque, _, h => by simp [occurs] at h
  | .name _, hr, h => by simp [rawOcc] at hr; simp [occurs, hr] at h
  | .hole m _, _, h => by
    simp [occurs] at h; subst h; simp [subst, hs, ha]
  | .attr e _, hr, h => by
    simp only [subst, hasOpaque, occurs, rawOcc] at *; exact hasOpaque_subst_of_occurs s n a hs ha e hr h
  | .unary _ e, hr, h => by
    simp only [subst, hasOpaque, occurs, rawOcc] at *; exact hasOpaque_subst_of_occurs s n a hs ha e hr h
  | .binop _ l r, hr, h => by
    simp only [subst, hasOpaque, occurs, rawOcc, Bool.or_eq_true, Bool.or_eq_false_iff] at *
    exact h.imp (hasOpaque_subst_of_occurs s n a hs ha l hr.1) (hasOpaque_subst_of_occurs s n a hs ha r hr.2)
  | .boolop _ es, hr, h => by
    simp only [subst, hasOpaque, occurs, rawOcc] at *; exact hasOpaques_subst_of_occurs s n a hs ha es hr h
  | .compare l rest, hr, h => by
    simp only [subst, hasOpaque, occurs, rawOcc, Bool.or_eq_true, Bool.or_eq_false_iff] at *
    exact h.imp (hasOpaque_subst_of_occurs s n a hs ha l hr.1) (hasOpaqueC_subst_of_occurs s n a hs ha rest hr.2)
  | .call _ args, hr, h => by
    simp only [subst, hasOpaque, occurs, rawOcc, Bool.or_eq_true, Bool.or_eq_false_iff] at *
    rcases h with h | h
    · simp [hr.1] at h
    · exact hasOpaques_subst_of_occurs s n a hs ha args hr.2 h
  | .mcall _ _ args, hr, h => by
    simp only [subst, hasOpaque, occurs, rawOcc, Bool.or_eq_true, Bool.or_eq_false_iff] at *
    rcases h with h | h
    · simp [hr.1] at h
    · exact hasOpaques_subst_of_occurs s n a hs ha args hr.2 h
  | .gen _ elt _ iter ifs, hr, h => by
    simp only [subst, hasOpaque, occurs, rawOcc, Bool.or_eq_true, Bool.or_eq_false_iff, Bool.and_eq_true] at *
    rcases h with h | ⟨_, h | h⟩
    · exact .inl (.inr (hasOpaque_subst_of_occurs s n a hs ha iter hr.1.1 h))
    · exact .inl (.inl (hasOpaque_subst_of_occurs s n a hs ha elt hr.1.2 h))
    · exact .inr (hasOpaques_subst_of_occurs s n a hs ha ifs hr.2 h)
  | .red _ e _ value, hr, h => by
    simp only [subst, hasOpaque, occurs, rawOcc, Bool.or_eq_true, Bool.or_eq_false_iff, Bool.and_eq_true] at *
    rcases h with h | ⟨_, h⟩
    · exact .inr (hasOpaque_subst_of_occurs s n a hs ha value hr.1 h)
    · exact .inl (hasOpaque_subst_of_occurs s n a hs ha e hr.2 h)
  | .ifexp t b o, hr, h => by
    simp only [subst, hasOpaque, occurs, rawOcc, Bool.or_eq_true, Bool.or_eq_false_iff] at *
    exact h.imp (Or.imp (hasOpaque_subst_of_occurs s n a hs ha t hr.1.1) (hasOpaque_subst_of_occurs s n a hs ha b hr.1.2))
      (hasOpaque_subst_of_occurs s n a hs ha o hr.2)
theorem hasOpaques_subst_of_occurs (s : Dict String (Expr V)) (n : String) (a : Expr V) (hs : Dict.get? s n = some a)
    (ha : hasOpaque a = true) : (es : Exprs V) → rawOccL n es = false → occursL n es = true → hasOpaques (substs s es) = true
  | .nil, _, h => by simp [occursL] at h
  | .cons e es, hr, h => by
    simp only [substs, hasOpaques, occursL, rawOccL, Bool.or_eq_true, Bool.or_eq_false_iff] at *
    exact h.imp (hasOpaque_subst_of_occurs s n a hs ha e hr.1) (hasOpaques_subst_of_occurs s n a hs ha es hr.2)
theorem hasOpaqueC_subst_of_occurs (s : Dict String (Expr V)) (n : String) (a : Expr V) (hs : Dict.get? s n = some a)
    (ha : hasOpaque a = true) : (r : Cmps V) → rawOccC n r = false → occursC n r = true → hasOpaqueC (substC s r) = true
  | .nil, _, h => by simp [occursC] at h
  | .cons _ e rest, hr, h => by
    simp only [substC, hasOpaqueC, occursC, rawOccC, Bool.or_eq_true, Bool.or_eq_false_iff] at *
    exact h.imp (hasOpaque_subst_of_occurs s n a hs ha e hr.1) (hasOpaqueC_subst_of_occurs s n a hs ha rest hr.2)
end

/-- Where a free name of a substituted expression comes from. -/
def FromSubst (s : Dict String (Expr V)) (n : String) (occ : Bool) : Prop :=
  (Dict.get? s n = none ∧ occ = true) ∨ (∃ m a, Dict.get? s m = some a ∧ occurs n a = true)

mutual
theorem occurs_subst (s : Dict String (Expr V)) (n : String) : (e : Expr V) → (∀ m, rawOcc m e = true → Dict.get? s m = none) →
    occurs n (subst s e) = true → FromSubst s n (occurs n e)
  | .const _, _, h => by simp [subst, occurs] at h
  | .str _, _, h => by simp [subst, occurs] at h
  | .opaque, _, h => by simp [subst, occurs] at h
  | .name m, hr, h => by
    simp only [subst, occurs, beq_iff_eq] at h; subst h
    exact .inl ⟨hr _ (by simp [rawOcc]), by simp [occurs]⟩
  | .hole m t, _, h => by
    simp only [subst] at h
    cases hs : Dict.get? s m with
    | none => rw [hs] at h; simp [occurs] at h; subst h; exact .inl ⟨hs, by simp [occurs]⟩
    | some a => rw [hs] at h; exact .inr ⟨m, a, hs, h⟩
  | .attr e _, hr, h => by
    simp only [subst, occurs] at *; exact occurs_subst s n e (fun m hm => hr m (by simp [rawOcc, hm])) h
  | .unary _ e, hr, h => by
    simp only [subst, occurs] at *; exact occurs_subst s n e (fun m hm => hr m (by simp [rawOcc, hm])) h
  | .binop _ l r, hr, h => by
    simp only [subst, occurs, Bool.or_eq_true] at *
    rcases h with h | h
    · exact (occurs_subst s n l (fun m hm => hr m (by simp [rawOcc, hm])) h).imp (fun ⟨a, b⟩ => ⟨a, by simp [b]⟩) id
    · exact (occurs_subst s n r (fun m hm => hr m (by simp [rawOcc, hm])) h).imp (fun ⟨a, b⟩ => ⟨a, by simp [b]⟩) id
  | .boolop _ es, hr, h => by
    simp only [subst, occurs] at *; exact occursL_subst s n es (fun m hm => hr m (by simp [rawOcc, hm])) h
  | .compare l rest, hr, h => by
    simp only [subst, occurs, Bool.or_eq_true] at *
    rcases h with h | h
    · exact (occurs_subst s n l (fun m hm => hr m (by simp [rawOcc, hm])) h).imp (fun ⟨a, b⟩ => ⟨a, by simp [b]⟩) id
    · exact (occursC_subst s n rest (fun m hm => hr m (by simp [rawOcc, hm])) h).imp (fun ⟨a, b⟩ => ⟨a, by simp [b]⟩) id
  | .call f args, hr, h => by
    simp only [subst, occurs, Bool.or_eq_true] at *
    rcases h with h | h
    · exact .inl ⟨hr n (by simpa [rawOcc] using Or.inl h), by simp [h]⟩
    · exact (occursL_subst s n args (fun m hm => hr m (by simp [rawOcc, hm])) h).imp (fun ⟨a, b⟩ => ⟨a, by simp [b]⟩) id
  | .mcall f _ args, hr, h => by
    simp only [subst, occurs, Bool.or_eq_true] at *
    rcases h with h | h
    · exact .inl ⟨hr n (by simpa [rawOcc] using Or.inl h), by simp [h]⟩
    · exact (occursL_subst s n args (fun m hm => hr m (by simp [rawOcc, hm])) h).imp (fun ⟨a, b⟩ => ⟨a, by simp [b]⟩) id
  | .gen _ elt x iter ifs, hr, h => by
    simp only [subst, occurs, Bool.or_eq_true, Bool.and_eq_true] at *
    rcases h with h | ⟨hx, h | h⟩
    · exact (occurs_subst s n iter (fun m hm => hr m (by simp [rawOcc, hm])) h).imp (fun ⟨a, b⟩ => ⟨a, by simp [b]⟩) id
    · exact (occurs_subst s n elt (fun m hm => hr m (by simp [rawOcc, hm])) h).imp (fun ⟨a, b⟩ => ⟨a, by simp [b, hx]⟩) id
    · exact (occursL_subst s n ifs (fun m hm => hr m (by simp [rawOcc, hm])) h).imp (fun ⟨a, b⟩ => ⟨a, by simp [b, hx]⟩) id
  | .red _ e x value, hr, h => by
    simp only [subst, occurs, Bool.or_eq_true, Bool.and_eq_true] at *
    rcases h with h | ⟨hx, h⟩
    · exact (occurs_subst s n value (fun m hm => hr m (by simp [rawOcc, hm])) h).imp (fun ⟨a, b⟩ => ⟨a, by simp [b]⟩) id
    · exact (occurs_subst s n e (fun m hm => hr m (by simp [rawOcc, hm])) h).imp (fun ⟨a, b⟩ => ⟨a, by simp [b, hx]⟩) id
  | .ifexp t b o, hr, h => by
    simp only [subst, occurs, Bool.or_eq_true] at *
    rcases h with (h | h) | h
    · exact (occurs_subst s n t (fun m hm => hr m (by simp [rawOcc, hm])) h).imp (fun ⟨a, b⟩ => ⟨a, by simp [b]⟩) id
    · exact (occurs_subst s n b (fun m hm => hr m (by simp [rawOcc, hm])) h).imp (fun ⟨a, b⟩ => ⟨a, by simp [b]⟩) id
    · exact (occurs_subst s n o (fun m hm => hr m (by simp [rawOcc, hm])) h).imp (fun ⟨a, b⟩ => ⟨a, by simp [b]⟩) id
theorem occursL_subst (s : Dict String (Expr V)) (n : String) : (es : Exprs V) →
    (∀ m, rawOccL m es = true → Dict.get? s m = none) → occursL n (substs s es) = true → FromSubst s n (occursL n es)
  | .nil, _, h => by simp [substs, occursL] at h
  | .cons e es, hr, h => by
    simp only [substs, occursL, Bool.or_eq_true] at *
    rcases h with h | h
    · exact (occurs_subst s n e (fun m hm => hr m (by simp [rawOccL, hm])) h).imp (fun ⟨a, b⟩ => ⟨a, by simp [b]⟩) id
    · exact (occursL_subst s n es (fun m hm => hr m (by simp [rawOccL, hm])) h).imp (fun ⟨a, b⟩ => ⟨a, by simp [b]⟩) id
theorem occursC_subst (s : Dict String (Expr V)) (n : String) : (r : Cmps V) →
    (∀ m, rawOccC m r = true → Dict.get? s m = none) → occursC n (substC s r) = true → FromSubst s n (occursC n r)
  | .nil, _, h => by simp [substC, occursC] at h
  | .cons _ e rest, hr, h => by
    simp only [substC, occursC, Bool.or_eq_true] at *
    rcases h with h | h
    · exact (occurs_subst s n e (fun m hm => hr m (by simp [rawOccC, hm])) h).imp (fun ⟨a, b⟩ => ⟨a, by simp [b]⟩) id
    · exact (occursC_subst s n rest (fun m hm => hr m (by simp [rawOccC, hm])) h).imp (fun ⟨a, b⟩ => ⟨a, by simp [b]⟩) id
end

end Verif.Py
