import Verif.Proofs.Parser4

/-! Helper functions are analysed to closures with the right meaning, so a module starts in a state that satisfies `Inv`. -/

set_option autoImplicit false

namespace Verif.Py

variable {V : Type}

mutual
theorem rawOcc_imp (n : String) : (e : Expr V) → rawOcc n e = true → occurs n e = true ∨ binds n e = true
  | .const _, h | .str _, h | .opaque, h | .hole _ _, h => by simp [rawOcc] at h
  | .name m, h => .inl (by simpa [rawOcc, occurs] using h)
  | .attr e _, h => by simp only [rawOcc, occurs, binds] at *; exact rawOcc_imp n e h
  | .unary _ e, h => by simp only [rawOcc, occurs, binds] at *; exact rawOcc_imp n e h
  | .binop _ l r, h => by
    simp only [rawOcc, occurs, binds, Bool.or_eq_true] at *
    have h1 := rawOcc_imp n l; have h2 := rawOcc_imp n r; tauto
  | .boolop _ es, h => by simp only [rawOcc, occurs, binds] at *; exact rawOccL_imp n es h
  | .compare l rest, h => by
    simp only [rawOcc, occurs, binds, Bool.or_eq_true] at *
    have h1 := rawOcc_imp n l; have h2 := rawOccC_imp n rest; tauto
  | .call f args, h => by
    simp only [rawOcc, occurs, binds, Bool.or_eq_true] at *
    have h1 := rawOccL_imp n args; tauto
  | .mcall f _ args, h => by
    simp only [rawOcc, occurs, binds, Bool.or_eq_true] at *
    have h1 := rawOccL_imp n args; tauto
  | .gen _ elt x iter ifs, h => by
    simp only [rawOcc, occurs, binds, Bool.or_eq_true, Bool.and_eq_true, bne_iff_ne, ne_eq, beq_iff_eq] at *
    have h1 := rawOcc_imp n elt; have h2 := rawOcc_imp n iter; have h3 := rawOccL_imp n ifs
    by_cases hx : x = n
    · tauto
    · have hx' : ¬ n = x := fun e => hx e.symm
      tauto
  | .red _ elt x iter, h => by
    simp only [rawOcc, occurs, binds, Bool.or_eq_true, Bool.and_eq_true, bne_iff_ne, ne_eq, beq_iff_eq] at *
    have h1 := rawOcc_imp n elt; have h2 := rawOcc_imp n iter
    by_cases hx : x = n
    · tauto
    · have hx' : ¬ n = x := fun e => hx e.symm
      tauto
  | .ifexp t b o, h => by
    simp only [rawOcc, occurs, binds, Bool.or_eq_true] at *
    have h1 := rawOcc_imp n t; have h2 := rawOcc_imp n b; have h3 := rawOcc_imp n o; tauto
theorem rawOccL_imp (n : String) : (es : Exprs V) → rawOccL n es = true → occursL n es = true ∨ bindsL n es = true
  | .nil, h => by simp [rawOccL] at h
  | .cons e es, h => by
    simp only [rawOccL, occursL, bindsL, Bool.or_eq_true] at *
    have h1 := rawOcc_imp n e; have h2 := rawOccL_imp n es; tauto
theorem rawOccC_imp (n : String) : (es : Cmps V) → rawOccC n es = true → occursC n es = true ∨ bindsC n es = true
  | .nil, h => by simp [rawOccC] at h
  | .cons _ e es, h => by
    simp only [rawOccC, occursC, bindsC, Bool.or_eq_true] at *
    have h1 := rawOcc_imp n e; have h2 := rawOccC_imp n es; tauto
end

/-- a substituted expression binds `n` -/
def BS (s : Dict String (Expr V)) (n : String) : Prop := ∃ m a, Dict.get? s m = some a ∧ binds n a = true

/-- a substituted expression mentions `n` -/
def RS (s : Dict String (Expr V)) (n : String) : Prop := ∃ m a, Dict.get? s m = some a ∧ rawOcc n a = true

mutual
theorem binds_subst (s : Dict String (Expr V)) (n : String) : (e : Expr V) → binds n (subst s e) = true →
    binds n e = true ∨ BS s n
  | .const _, h | .str _, h | .opaque, h | .name _, h => by simp [subst, binds] at h
  | .hole m t, h => by
    simp only [subst] at h
    cases hs : Dict.get? s m with
    | none => rw [hs] at h; simp [binds] at h
    | some a => rw [hs] at h; exact .inr ⟨m, a, hs, h⟩
  | .attr e _, h => by simp only [subst, binds] at *; exact binds_subst s n e h
  | .unary _ e, h => by simp only [subst, binds] at *; exact binds_subst s n e h
  | .binop _ l r, h => by
    simp only [subst, binds, Bool.or_eq_true] at *
    have h1 := binds_subst s n l; have h2 := binds_subst s n r; tauto
  | .boolop _ es, h => by simp only [subst, binds] at *; exact bindsL_subst s n es h
  | .compare l rest, h => by
    simp only [subst, binds, Bool.or_eq_true] at *
    have h1 := binds_subst s n l; have h2 := bindsC_subst s n rest; tauto
  | .call f args, h => by simp only [subst, binds] at *; exact bindsL_subst s n args h
  | .mcall f _ args, h => by simp only [subst, binds] at *; exact bindsL_subst s n args h
  | .gen _ elt x iter ifs, h => by
    simp only [subst, binds, Bool.or_eq_true] at *
    have h1 := binds_subst s n elt; have h2 := binds_subst s n iter; have h3 := bindsL_subst s n ifs; tauto
  | .red _ elt x iter, h => by
    simp only [subst, binds, Bool.or_eq_true] at *
    have h1 := binds_subst s n elt; have h2 := binds_subst s n iter; tauto
  | .ifexp t b o, h => by
    simp only [subst, binds, Bool.or_eq_true] at *
    have h1 := binds_subst s n t; have h2 := binds_subst s n b; have h3 := binds_subst s n o; tauto
theorem bindsL_subst (s : Dict String (Expr V)) (n : String) : (e : Exprs V) → bindsL n (substs s e) = true →
    bindsL n e = true ∨ BS s n
  | .nil, h => by simp [substs, bindsL] at h
  | .cons e es, h => by
    simp only [substs, bindsL, Bool.or_eq_true] at *
    have h1 := binds_subst s n e; have h2 := bindsL_subst s n es; tauto
theorem bindsC_subst (s : Dict String (Expr V)) (n : String) : (e : Cmps V) → bindsC n (substC s e) = true →
    bindsC n e = true ∨ BS s n
  | .nil, h => by simp [substC, bindsC] at h
  | .cons _ e es, h => by
    simp only [substC, bindsC, Bool.or_eq_true] at *
    have h1 := binds_subst s n e; have h2 := bindsC_subst s n es; tauto
end

mutual
theorem rawOcc_subst (s : Dict String (Expr V)) (n : String) : (e : Expr V) → rawOcc n (subst s e) = true →
    rawOcc n e = true ∨ RS s n
  | .const _, h | .str _, h | .opaque, h => by simp [subst, rawOcc] at h
  | .name _, h => .inl (by simpa [subst] using h)
  | .hole m t, h => by
    simp only [subst] at h
    cases hs : Dict.get? s m with
    | none => rw [hs] at h; simp [rawOcc] at h
    | some a => rw [hs] at h; exact .inr ⟨m, a, hs, h⟩
  | .attr e _, h => by simp only [subst, rawOcc] at *; exact rawOcc_subst s n e h
  | .unary _ e, h => by simp only [subst, rawOcc] at *; exact rawOcc_subst s n e h
  | .binop _ l r, h => by
    simp only [subst, rawOcc, Bool.or_eq_true] at *
    have h1 := rawOcc_subst s n l; have h2 := rawOcc_subst s n r; tauto
  | .boolop _ es, h => by simp only [subst, rawOcc] at *; exact rawOccL_subst s n es h
  | .compare l rest, h => by
    simp only [subst, rawOcc, Bool.or_eq_true] at *
    have h1 := rawOcc_subst s n l; have h2 := rawOccC_subst s n rest; tauto
  | .call f args, h => by
    simp only [subst, rawOcc, Bool.or_eq_true] at *
    have h1 := rawOccL_subst s n args; tauto
  | .mcall f _ args, h => by
    simp only [subst, rawOcc, Bool.or_eq_true] at *
    have h1 := rawOccL_subst s n args; tauto
  | .gen _ elt x iter ifs, h => by
    simp only [subst, rawOcc, Bool.or_eq_true] at *
    have h1 := rawOcc_subst s n elt; have h2 := rawOcc_subst s n iter; have h3 := rawOccL_subst s n ifs; tauto
  | .red _ elt x iter, h => by
    simp only [subst, rawOcc, Bool.or_eq_true] at *
    have h1 := rawOcc_subst s n elt; have h2 := rawOcc_subst s n iter; tauto
  | .ifexp t b o, h => by
    simp only [subst, rawOcc, Bool.or_eq_true] at *
    have h1 := rawOcc_subst s n t; have h2 := rawOcc_subst s n b; have h3 := rawOcc_subst s n o; tauto
theorem rawOccL_subst (s : Dict String (Expr V)) (n : String) : (e : Exprs V) → rawOccL n (substs s e) = true →
    rawOccL n e = true ∨ RS s n
  | .nil, h => by simp [substs, rawOccL] at h
  | .cons e es, h => by
    simp only [substs, rawOccL, Bool.or_eq_true] at *
    have h1 := rawOcc_subst s n e; have h2 := rawOccL_subst s n es; tauto
theorem rawOccC_subst (s : Dict String (Expr V)) (n : String) : (e : Cmps V) → rawOccC n (substC s e) = true →
    rawOccC n e = true ∨ RS s n
  | .nil, h => by simp [substC, rawOccC] at h
  | .cons _ e es, h => by
    simp only [substC, rawOccC, Bool.or_eq_true] at *
    have h1 := rawOcc_subst s n e; have h2 := rawOccC_subst s n es; tauto
end

/-- The names of a closure. -/
structure LamShape (A : String → Prop) (bs : List String) (l : Lam V) : Prop where
  binders : ∀ y, binds y l.body = true → y ∈ bs
  free : ∀ n, occurs n l.body = true → n ∈ l.params ∨ A n
  raw : ∀ n, rawOcc n l.body = true → A n ∨ n ∈ bs

/-- Module level: inputs and closures only. `A` are the inputs at module level. -/
structure Start (A : String → Prop) (N : Names) (env : Env V) : Prop where
  sub : ∀ n, A n → N.A n
  look : ∀ k sv, env.lookup k = some sv → (∃ t, sv = .cell (.ast (.hole k t)) ∧ N.A k) ∨
    ∃ j bs l, N.L k = some (j, bs) ∧ sv = .lam l ∧ LamShape A bs l

theorem Start.under {A : String → Prop} {N : Names} {env : Env V} (h : Start A N env) (x : String) (t : Option String) :
    Start A (N.under x) (env.addHole x t) := by
  refine ⟨fun n hn => .inr (h.sub n hn), fun k sv hk => ?_⟩
  rw [lookup_addHole] at hk
  split at hk
  · rename_i e; subst e; injection hk with hk; subst hk; exact .inl ⟨_, rfl, .inl rfl⟩
  · exact (h.look k sv hk).imp (fun ⟨t, h1, h2⟩ => ⟨t, h1, .inr h2⟩) id

/-- The names of an expression after analysis. -/
structure Shape (A : String → Prop) (N : Names) (src : String → Bool) (bnd : String → Bool) (occ bd raw : String → Bool) : Prop where
  free : ∀ n, occ n = true → N.A n
  binders : ∀ y, bd y = true → bnd y = true ∨ ∃ g k bs, N.L g = some (k, bs) ∧ src g = true ∧ y ∈ bs
  raw : ∀ n, raw n = true → src n = true ∨ A n ∨ ∃ g k bs, N.L g = some (k, bs) ∧ src g = true ∧ n ∈ bs

theorem Shape.or {A : String → Prop} {N : Names} {s1 b1 o1 d1 r1 s2 b2 o2 d2 r2 : String → Bool}
    (h1 : Shape A N s1 b1 o1 d1 r1) (h2 : Shape A N s2 b2 o2 d2 r2) :
    Shape A N (fun n => s1 n || s2 n) (fun n => b1 n || b2 n) (fun n => o1 n || o2 n) (fun n => d1 n || d2 n)
      (fun n => r1 n || r2 n) := by
  constructor
  · intro n hn
    rw [Bool.or_eq_true] at hn
    exact hn.elim (h1.free n) (h2.free n)
  · intro y hy
    rw [Bool.or_eq_true] at hy
    rcases hy with hy | hy
    · rcases h1.binders y hy with h | ⟨g, k, bs, a, b, c⟩
      · exact .inl (by simp [h])
      · exact .inr ⟨g, k, bs, a, by simp [b], c⟩
    · rcases h2.binders y hy with h | ⟨g, k, bs, a, b, c⟩
      · exact .inl (by simp [h])
      · exact .inr ⟨g, k, bs, a, by simp [b], c⟩
  · intro y hy
    rw [Bool.or_eq_true] at hy
    rcases hy with hy | hy
    · rcases h1.raw y hy with h | h | ⟨g, k, bs, a, b, c⟩
      · exact .inl (by simp [h])
      · exact .inr (.inl h)
      · exact .inr (.inr ⟨g, k, bs, a, by simp [b], c⟩)
    · rcases h2.raw y hy with h | h | ⟨g, k, bs, a, b, c⟩
      · exact .inl (by simp [h])
      · exact .inr (.inl h)
      · exact .inr (.inr ⟨g, k, bs, a, by simp [b], c⟩)

theorem Shape.none {A : String → Prop} {N : Names} {s b : String → Bool} : Shape A N s b (fun _ => false) (fun _ => false)
    (fun _ => false) := ⟨by simp, by simp, by simp⟩

/-- An expression without binders and plain names whose free names are inputs. -/
theorem Shape.simple {A : String → Prop} {N : Names} {s b o : String → Bool} (h : ∀ n, o n = true → N.A n) :
    Shape A N s b o (fun _ => false) (fun _ => false) := ⟨h, by simp, by simp⟩

theorem Shape.mono {A : String → Prop} {N : Names} {s b o d r s' b' o' d' r' : String → Bool} (h : Shape A N s b o d r)
    (hs : ∀ n, s n = true → s' n = true) (hb : ∀ n, b n = true → b' n = true) (ho : ∀ n, o' n = true → o n = true)
    (hd : ∀ n, d' n = true → d n = true) (hr : ∀ n, r' n = true → r n = true) : Shape A N s' b' o' d' r' := by
  constructor
  · intro n hn; exact h.free n (ho n hn)
  · intro y hy
    rcases h.binders y (hd y hy) with h | ⟨g, k, bs, a, b, c⟩
    · exact .inl (hb y h)
    · exact .inr ⟨g, k, bs, a, hs g b, c⟩
  · intro y hy
    rcases h.raw y (hr y hy) with h | h | ⟨g, k, bs, a, b, c⟩
    · exact .inl (hs y h)
    · exact .inr (.inl h)
    · exact .inr (.inr ⟨g, k, bs, a, hs g b, c⟩)

theorem binds_neighbours (n : String) : ∀ (r : Cmps V) (l : Expr V), bindsL n (neighbours l r) = true →
    binds n l = true ∨ bindsC n r = true
  | .nil, l, h => by simp [neighbours, bindsL] at h
  | .cons op e rest, l, h => by
    simp only [neighbours, bindsL, binds, bindsC, Bool.or_eq_true, Bool.false_eq_true, or_false] at h ⊢
    have := binds_neighbours n rest e; tauto

theorem rawOcc_neighbours (n : String) : ∀ (r : Cmps V) (l : Expr V), rawOccL n (neighbours l r) = true →
    rawOcc n l = true ∨ rawOccC n r = true
  | .nil, l, h => by simp [neighbours, rawOccL] at h
  | .cons op e rest, l, h => by
    simp only [neighbours, rawOccL, rawOcc, rawOccC, Bool.or_eq_true, Bool.false_eq_true, or_false] at h ⊢
    have := rawOcc_neighbours n rest e; tauto

theorem binds_mkCompare (n : String) (l : Expr V) (r : Cmps V) (h : binds n (mkCompare l r) = true) :
    binds n l = true ∨ bindsC n r = true := by
  match r with
  | .nil => simpa [mkCompare, binds, bindsC] using h
  | .cons op e .nil => simpa [mkCompare, binds, bindsC] using h
  | .cons op e (.cons op' e' rest) =>
    have := binds_neighbours n (.cons op' e' rest) e
    simp only [mkCompare, bindsL, binds, bindsC, Bool.or_eq_true, Bool.false_eq_true, or_false] at h this ⊢
    tauto

theorem rawOcc_mkCompare (n : String) (l : Expr V) (r : Cmps V) (h : rawOcc n (mkCompare l r) = true) :
    rawOcc n l = true ∨ rawOccC n r = true := by
  match r with
  | .nil => simpa [mkCompare, rawOcc, rawOccC] using h
  | .cons op e .nil => simpa [mkCompare, rawOcc, rawOccC] using h
  | .cons op e (.cons op' e' rest) =>
    have := rawOcc_neighbours n (.cons op' e' rest) e
    simp only [mkCompare, rawOccL, rawOcc, rawOccC, Bool.or_eq_true, Bool.false_eq_true, or_false] at h this ⊢
    tauto

theorem mem_toList_binds {as : Exprs V} {a : Expr V} (ha : a ∈ as.toList) {n : String} (hn : binds n a = true) :
    bindsL n as = true := by
  match as with
  | .nil => simp [Exprs.toList] at ha
  | .cons e es =>
    simp only [Exprs.toList, List.mem_cons] at ha
    simp only [bindsL, Bool.or_eq_true]
    rcases ha with rfl | ha
    · exact .inl hn
    · exact .inr (mem_toList_binds ha hn)

theorem mem_toList_raw {as : Exprs V} {a : Expr V} (ha : a ∈ as.toList) {n : String} (hn : rawOcc n a = true) :
    rawOccL n as = true := by
  match as with
  | .nil => simp [Exprs.toList] at ha
  | .cons e es =>
    simp only [Exprs.toList, List.mem_cons] at ha
    simp only [rawOccL, Bool.or_eq_true]
    rcases ha with rfl | ha
    · exact .inl hn
    · exact .inr (mem_toList_raw ha hn)

/-- result of the analysis: not an object, and with the names `Shape` allows -/
def VShape (A : String → Prop) (N : Names) (e : Expr V) (sv : Option (SV V)) : Prop :=
  (∀ d, sv ≠ some (.obj d)) ∧
  Shape A N (special · e) (binds · e) (occurs · (toExpr sv)) (binds · (toExpr sv)) (rawOcc · (toExpr sv))

theorem VShape.ast {A : String → Prop} {N : Names} {e e' : Expr V}
    (h : Shape A N (special · e) (binds · e) (occurs · e') (binds · e') (rawOcc · e')) :
    VShape A N e (some (.cell (.ast e'))) := ⟨by simp, h⟩

mutual
theorem procV_shape {P : PyOps V} (hP : P.Lawful) {A : String → Prop} : (e : Expr V) → {N : Names} → {env env' : Env V} →
    {ν σ : Store V} → {sv : Option (SV V)} → Static N e → Inv P N env ν σ → Start A N env →
    procV P.zero env e = .ok (sv, env') → VShape A N e sv
  | .const v, N, env, env', ν, σ, sv, _, hI, hS, h => by
    obtain ⟨rfl, rfl⟩ := pair_ok h
    exact .ast (by simpa [occurs, binds, rawOcc] using Shape.none)
  | .str v, N, env, env', ν, σ, sv, _, hI, hS, h => by
    obtain ⟨rfl, rfl⟩ := pair_ok h
    exact .ast (by simpa [occurs, binds, rawOcc] using Shape.none)
  | .hole _ _, _, _, _, _, _, _, hs, _, _, _ => by simp [Static] at hs
  | .opaque, _, _, _, _, _, _, hs, _, _, _ => by simp [Static] at hs
  | .red _ _ _ _, _, _, _, _, _, _, hs, _, _, _ => by simp [Static] at hs
  | .ifexp t b o, N, env, env', ν, σ, sv, hs, hI, hS, h => by
    obtain ⟨rfl, rfl⟩ := pair_ok h
    simp only [Static] at hs
    refine .ast ⟨hs, fun y hy => .inl hy, fun n hn => .inl ?_⟩
    simpa [special, rawOcc] using hn
  | .name n, N, env, env', ν, σ, sv, _, hI, hS, h => by
    obtain ⟨rfl, rfl⟩ := pair_ok h
    cases hl : env.lookup n with
    | none => exact ⟨by simp, by simpa [toExpr, occurs, binds, rawOcc] using Shape.none⟩
    | some w =>
      rcases hS.look n w hl with ⟨t, rfl, hA⟩ | ⟨j, bs, l, -, rfl, -⟩
      · refine .ast ?_
        simp only [binds, rawOcc]
        refine Shape.simple (fun m hm => ?_)
        simp only [occurs, beq_iff_eq] at hm; subst hm; exact hA
      · exact ⟨by simp, by simpa [toExpr, occurs, binds, rawOcc] using Shape.none⟩
  | .attr e a, N, env, env', ν, σ, sv, hs, hI, hS, h => by
    simp only [Static] at hs
    rw [procV] at h
    by_cases hm : isModeName env.modeDefs e = true
    · rw [if_pos hm] at h
      obtain ⟨rfl, rfl⟩ := pair_ok h
      exact .ast (by simpa [occurs, binds, rawOcc] using Shape.none)
    · rw [if_neg hm] at h
      obtain ⟨⟨o, env1⟩, h1, h2⟩ := (bind_ok_iff ..).1 h
      obtain ⟨v, h3, h4⟩ := (bind_ok_iff ..).1 h2
      obtain ⟨rfl, rfl⟩ := pair_ok h4
      obtain ⟨ih1, ih2⟩ := procV_shape hP e hs hI hS h1
      match o, h3 with
      | none, h3 => cases h3
      | some (.lam _), h3 => cases h3
      | some (.obj d), h3 => exact absurd rfl (ih1 d)
      | some (.cell (.cond _)), h3 => cases h3
      | some (.cell (.ast e')), h3 =>
        cases e' with
        | hole n t =>
          simp only [attrOf] at h3
          injection h3 with h3; subst h3
          refine .ast ?_
          split
          · simpa [occurs, binds, rawOcc] using Shape.none
          · simpa [special, occurs, binds, rawOcc, toExpr] using ih2
        | _ => cases h3
  | .unary op e, N, env, env', ν, σ, sv, hs, hI, hS, h => by
    simp only [Static] at hs
    rw [procV] at h
    obtain ⟨⟨v, env1⟩, h1, h2⟩ := (bind_ok_iff ..).1 h
    obtain ⟨rfl, rfl⟩ := pair_ok h2
    obtain ⟨ih1, ih2⟩ := procV_shape hP e hs hI hS h1
    exact .ast (by simpa [special, occurs, binds, rawOcc] using ih2)
  | .binop op l r, N, env, env', ν, σ, sv, hs, hI, hS, h => by
    simp only [Static] at hs
    rw [procV] at h
    obtain ⟨⟨v, env1⟩, h1, h2⟩ := (bind_ok_iff ..).1 h
    obtain ⟨⟨w, env2⟩, h3, h4⟩ := (bind_ok_iff ..).1 h2
    obtain ⟨rfl, rfl⟩ := pair_ok h4
    obtain ⟨rfl, -⟩ := procV_ok hP l hs.1 hI h1
    obtain ⟨-, ih1⟩ := procV_shape hP l hs.1 hI hS h1
    obtain ⟨-, ih2⟩ := procV_shape hP r hs.2 hI hS h3
    exact .ast (by simpa [special, occurs, binds, rawOcc] using ih1.or ih2)
  | .boolop op es, N, env, env', ν, σ, sv, hs, hI, hS, h => by
    simp only [Static] at hs
    rw [procV] at h
    obtain ⟨⟨vs, env1⟩, h1, h2⟩ := (bind_ok_iff ..).1 h
    obtain ⟨rfl, rfl⟩ := pair_ok h2
    have ih := procL_shape hP es hs hI hS h1
    exact .ast (by simpa [special, occurs, binds, rawOcc] using ih)
  | .compare l rest, N, env, env', ν, σ, sv, hs, hI, hS, h => by
    simp only [Static] at hs
    rw [procV] at h
    obtain ⟨⟨vs, env1⟩, h1, h2⟩ := (bind_ok_iff ..).1 h
    obtain ⟨⟨v, env2⟩, h3, h4⟩ := (bind_ok_iff ..).1 h2
    obtain ⟨rfl, rfl⟩ := pair_ok h4
    obtain ⟨rfl, -⟩ := procC_ok hP rest hs.2 hI h1
    have ih1 := procC_shape hP rest hs.2 hI hS h1
    obtain ⟨-, ih2⟩ := procV_shape hP l hs.1 hI hS h3
    refine .ast ((ih2.or ih1).mono ?_ ?_ ?_ ?_ ?_)
    · intro n hn; simpa [special] using hn
    · intro n hn; simpa [binds] using hn
    · intro n hn; simpa using occurs_mkCompare n _ _ hn
    · intro n hn; simpa using binds_mkCompare n _ _ hn
    · intro n hn; simpa using rawOcc_mkCompare n _ _ hn
  | .call f args, N, env, env', ν, σ, sv, hs, hI, hS, h => by
    simp only [Static] at hs
    rw [procV] at h
    rcases hs.1 with hA | ⟨k, bs, hL, hlen, hb⟩
    · obtain ⟨⟨t, hf⟩, hσ⟩ := hI.input f hA
      rw [hf] at h
      obtain ⟨⟨vs, env1⟩, h1, h2⟩ := (bind_ok_iff ..).1 h
      obtain ⟨rfl, rfl⟩ := pair_ok h2
      have ih := procL_shape hP args hs.2 hI hS h1
      refine .ast ⟨?_, ?_, ?_⟩
      · intro n hn
        simp only [occurs, Bool.or_eq_true, beq_iff_eq] at hn
        rcases hn with rfl | hn
        · exact hA
        · exact ih.free n hn
      · intro y hy
        simp only [binds, special] at hy ⊢
        rcases ih.binders y hy with h | ⟨g, k, bs, a, b, c⟩
        · exact .inl h
        · exact .inr ⟨g, k, bs, a, by simp [b], c⟩
      · intro n hn
        simp only [rawOcc, special, Bool.or_eq_true] at hn ⊢
        rcases hn with hn | hn
        · exact .inl (.inl hn)
        · rcases ih.raw n hn with h | h | ⟨g, k, bs, a, b, c⟩
          · exact .inl (.inr h)
          · exact .inr (.inl h)
          · exact .inr (.inr ⟨g, k, bs, a, .inr b, c⟩)
    · obtain ⟨l, hf, hl⟩ := hI.lams f k bs hL
      have hsh : LamShape A bs l := by
        rcases hS.look f _ hf with ⟨t, h1, -⟩ | ⟨j, bs', l', h1, h2, h3⟩
        · cases h1
        · rw [hL] at h1; cases h1; cases h2; exact h3
      rw [hf] at h
      obtain ⟨⟨vs, env1⟩, h1, h2⟩ := (bind_ok_iff ..).1 h
      obtain ⟨rfl, rfl⟩ := pair_ok h2
      have ih := procL_shape hP args hs.2 hI hS h1
      obtain ⟨-, ihr⟩ := procL_ok hP args hs.2 hI h1
      have hsub : (l.apply vs.toList).2 = subst (zipSubst l.params vs.toList) l.body := rfl
      have hl1 : l.params.length = vs.toList.length := by rw [hl.arity, ihr.toList_len, hlen]
      rw [hsub]
      refine .ast ⟨?_, ?_, ?_⟩
      · intro n hn
        have hraw : ∀ m, rawOcc m l.body = true → Dict.get? (zipSubst l.params vs.toList) m = none := by
          intro m hm
          cases hg : Dict.get? (zipSubst l.params vs.toList) m with
          | none => rfl
          | some a =>
            have := (hl.params m (zipSubst_mem _ _ hg).1).2
            rw [this] at hm; cases hm
        rcases occurs_subst _ n l.body hraw hn with ⟨h1, h2⟩ | ⟨m, a, h1, h2⟩
        · refine hS.sub n ((hsh.free n h2).resolve_left (fun hp => ?_))
          have hmem : n ∈ (zipSubst l.params vs.toList).map Prod.fst := zipSubst_keys _ _ hl1 n hp
          rw [← Dict.isSome_get?_iff] at hmem
          obtain ⟨a, ha⟩ := Option.isSome_iff_exists.1 hmem
          rw [h1] at ha; cases ha
        · exact ih.free n (mem_toList_occurs (zipSubst_mem _ _ h1).2 h2)
      · intro y hy
        rcases binds_subst _ y _ hy with h3 | ⟨m, a, h3, h4⟩
        · exact .inr ⟨f, k, bs, hL, by simp [special], hsh.binders y h3⟩
        · rcases ih.binders y (mem_toList_binds (zipSubst_mem _ _ h3).2 h4) with h | ⟨g, k, bs, a, b, c⟩
          · exact .inl (by simpa [binds] using h)
          · exact .inr ⟨g, k, bs, a, by simp [special, b], c⟩
      · intro n hn
        rcases rawOcc_subst _ n _ hn with h3 | ⟨m, a, h3, h4⟩
        · rcases hsh.raw n h3 with h5 | h5
          · exact .inr (.inl h5)
          · exact .inr (.inr ⟨f, k, bs, hL, by simp [special], h5⟩)
        · rcases ih.raw n (mem_toList_raw (zipSubst_mem _ _ h3).2 h4) with h | h | ⟨g, k, bs, a, b, c⟩
          · exact .inl (by simp [special, h])
          · exact .inr (.inl h)
          · exact .inr (.inr ⟨g, k, bs, a, by simp [special, b], c⟩)
  | .mcall o f args, N, env, env', ν, σ, sv, hs, hI, hS, h => by
    simp only [Static] at hs
    obtain ⟨⟨t, ho⟩, hσ⟩ := hI.input o hs.1
    rw [procV_mcall, ho] at h
    by_cases hc : (isCopy (some (SV.cell (Cell.ast (Expr.hole (V := V) o t)))) && f == "deepcopy") = true
    · rw [if_pos hc] at h
      match args, hs, h with
      | .nil, hs, h => cases h
      | .cons e (.cons _ _), hs, h => cases h
      | .cons e .nil, hs, h =>
        simp only [StaticL] at hs
        obtain ⟨i1, i2⟩ := procV_shape hP e hs.2.1 hI hS h
        refine ⟨i1, i2.mono ?_ ?_ (fun _ h => h) (fun _ h => h) (fun _ h => h)⟩
        · intro n hn; simp [special, specialL, hn]
        · intro n hn; simp [binds, bindsL, hn]
    · rw [if_neg hc] at h
      simp only [isHole, if_true] at h
      obtain ⟨⟨vs, env1⟩, h1, h2⟩ := (bind_ok_iff ..).1 h
      obtain ⟨rfl, rfl⟩ := pair_ok h2
      have ih := procL_shape hP args hs.2 hI hS h1
      refine .ast ⟨?_, ?_, ?_⟩
      · intro n hn
        simp only [occurs, Bool.or_eq_true, beq_iff_eq] at hn
        rcases hn with rfl | hn
        · exact hs.1
        · exact ih.free n hn
      · intro y hy
        simp only [binds, special] at hy ⊢
        rcases ih.binders y hy with h | ⟨g, k, bs, a, b, c⟩
        · exact .inl h
        · exact .inr ⟨g, k, bs, a, by simp [b], c⟩
      · intro n hn
        simp only [rawOcc, special, Bool.or_eq_true] at hn ⊢
        rcases hn with hn | hn
        · exact .inl (.inl hn)
        · rcases ih.raw n hn with h | h | ⟨g, k, bs, a, b, c⟩
          · exact .inl (.inr h)
          · exact .inr (.inl h)
          · exact .inr (.inr ⟨g, k, bs, a, .inr b, c⟩)
  | .gen op elt x iter ifs, N, env, env', ν, σ, sv, hs, hI, hS, h => by
    simp only [Static] at hs
    obtain ⟨hx, ⟨m, hm, hAm⟩, hfilt, helt⟩ := hs
    subst hm
    rw [procV] at h
    split at h
    · cases h
    obtain ⟨⟨e, env1⟩, h1, h2⟩ := (bind_ok_iff ..).1 h
    obtain ⟨⟨i, env2⟩, h3, h4⟩ := (bind_ok_iff ..).1 h2
    obtain ⟨rfl, rfl⟩ := pair_ok h4
    have hI1 := hI.under hx P.zero
    obtain ⟨rfl, -⟩ := procV_ok hP elt helt hI1 h1
    obtain ⟨-, ih⟩ := procV_shape hP elt helt hI1 (hS.under x none) h1
    obtain ⟨⟨t, hmh⟩, hmσ⟩ := hI.input m hAm
    have hmx : ¬ x = m := by rintro rfl; rw [hI.fresh _ hx] at hmh; cases hmh
    simp only [procV] at h3
    obtain ⟨rfl, rfl⟩ := pair_ok h3
    have hi : (env.addHole x none).lookup m = some (.cell (.ast (.hole m t))) := by
      rw [lookup_addHole, if_neg hmx]; exact hmh
    rw [hi]
    -- names of the filtered element
    have hocc : ∀ n, occurs n (if ifs.length = 0 then toExpr e else condTrans P.zero op (toExpr e) (.boolop .and ifs)) = true →
        occurs n (toExpr e) = true ∨ occursL n ifs = true := by
      intro n hn
      split at hn
      · exact .inl hn
      · cases op <;> simp only [condTrans, occurs, occursL, Bool.or_eq_true, Bool.or_false] at hn <;> tauto
    have hbd : ∀ n, binds n (if ifs.length = 0 then toExpr e else condTrans P.zero op (toExpr e) (.boolop .and ifs)) = true →
        binds n (toExpr e) = true ∨ bindsL n ifs = true := by
      intro n hn
      split at hn
      · exact .inl hn
      · cases op <;> simp only [condTrans, binds, bindsL, Bool.or_eq_true, Bool.or_false] at hn <;> tauto
    have hraw : ∀ n, rawOcc n (if ifs.length = 0 then toExpr e else condTrans P.zero op (toExpr e) (.boolop .and ifs)) = true →
        rawOcc n (toExpr e) = true ∨ rawOccL n ifs = true := by
      intro n hn
      split at hn
      · exact .inl hn
      · cases op <;> simp only [condTrans, rawOcc, rawOccL, Bool.or_eq_true, Bool.or_false] at hn <;> tauto
    refine .ast ⟨?_, ?_, ?_⟩
    · intro n hn
      simp only [occurs, Bool.or_eq_true, Bool.and_eq_true, bne_iff_ne, ne_eq, toExpr_ast, beq_iff_eq] at hn
      rcases hn with rfl | ⟨hne, hn⟩
      · exact hAm
      · rcases hocc n hn with h5 | h5
        · exact (ih.free n h5).resolve_left hne
        · exact (hfilt n h5).resolve_left hne
    · intro y hy
      simp only [binds, special, Bool.or_eq_true, toExpr_ast, Bool.false_eq_true, or_false, false_or] at hy ⊢
      rcases hy with hy | hy
      · exact .inl (.inl (.inl hy))
      · rcases hbd y hy with h5 | h5
        · rcases ih.binders y h5 with h | ⟨g, k, bs, a, b, c⟩
          · exact .inl (.inl (.inr h))
          · exact .inr ⟨g, k, bs, a, .inl b, c⟩
        · exact .inl (.inr h5)
    · intro n hn
      simp only [rawOcc, special, Bool.or_eq_true, toExpr_ast, Bool.false_eq_true, false_or] at hn ⊢
      rcases hraw n hn with h5 | h5
      · rcases ih.raw n h5 with h | h | ⟨g, k, bs, a, b, c⟩
        · exact .inl (.inl h)
        · exact .inr (.inl h)
        · exact .inr (.inr ⟨g, k, bs, a, .inl b, c⟩)
      · exact .inl (.inr h5)
theorem procL_shape {P : PyOps V} (hP : P.Lawful) {A : String → Prop} : (es : Exprs V) → {N : Names} → {env env' : Env V} →
    {ν σ : Store V} → {vs : Exprs V} → StaticL N es → Inv P N env ν σ → Start A N env →
    procL P.zero env es = .ok (vs, env') →
    Shape A N (specialL · es) (bindsL · es) (occursL · vs) (bindsL · vs) (rawOccL · vs)
  | .nil, N, env, env', ν, σ, sv, hs, hI, hS, h => by
    obtain ⟨rfl, rfl⟩ := pair_ok h
    simpa [occursL, bindsL, rawOccL] using Shape.none
  | .cons e es, N, env, env', ν, σ, sv, hs, hI, hS, h => by
    simp only [StaticL] at hs
    rw [procL] at h
    obtain ⟨⟨v, env1⟩, h1, h2⟩ := (bind_ok_iff ..).1 h
    obtain ⟨⟨w, env2⟩, h3, h4⟩ := (bind_ok_iff ..).1 h2
    obtain ⟨rfl, rfl⟩ := pair_ok h4
    obtain ⟨rfl, -⟩ := procV_ok hP e hs.1 hI h1
    obtain ⟨-, ih1⟩ := procV_shape hP e hs.1 hI hS h1
    have ih2 := procL_shape hP es hs.2 hI hS h3
    simpa [specialL, occursL, bindsL, rawOccL] using ih1.or ih2
theorem procC_shape {P : PyOps V} (hP : P.Lawful) {A : String → Prop} : (es : Cmps V) → {N : Names} → {env env' : Env V} →
    {ν σ : Store V} → {vs : Cmps V} → StaticC N es → Inv P N env ν σ → Start A N env →
    procC P.zero env es = .ok (vs, env') →
    Shape A N (specialC · es) (bindsC · es) (occursC · vs) (bindsC · vs) (rawOccC · vs)
  | .nil, N, env, env', ν, σ, sv, hs, hI, hS, h => by
    obtain ⟨rfl, rfl⟩ := pair_ok h
    simpa [occursC, bindsC, rawOccC] using Shape.none
  | .cons op e es, N, env, env', ν, σ, sv, hs, hI, hS, h => by
    simp only [StaticC] at hs
    rw [procC] at h
    obtain ⟨⟨v, env1⟩, h1, h2⟩ := (bind_ok_iff ..).1 h
    obtain ⟨⟨w, env2⟩, h3, h4⟩ := (bind_ok_iff ..).1 h2
    obtain ⟨rfl, rfl⟩ := pair_ok h4
    obtain ⟨rfl, -⟩ := procV_ok hP e hs.1 hI h1
    obtain ⟨-, ih1⟩ := procV_shape hP e hs.1 hI hS h1
    have ih2 := procC_shape hP es hs.2 hI hS h3
    simpa [specialC, occursC, bindsC, rawOccC] using ih1.or ih2
end

end Verif.Py
