import Verif.Spec.PyText

/-!
The grammar of `Verif.Spec.PyText` is deterministic, and reads the tokens of an expression as this expression.
-/

set_option autoImplicit false

namespace Verif.Spec.PyText

open Verif.Unparse (Text UnOp BinOp BoolOp CmpOp Expr)

/-! ### Determinism -/

theorem reads_det {s : Sym} {ts : List Tok} {o : Out} {r : List Tok} (h : Reads s ts o r) : ∀ {o' : Out} {r' : List Tok}, Reads s ts o' r' → o' = o ∧ r' = r := by
  induction h with
  | exprIf _ _ _ i1 i2 i3 =>
    intro o' r' h'
    cases h' with
    | exprIf a1 a2 a3 =>
      have e1 := i1 a1
      injection e1.1 with e; injection e1.2 with _ e'; subst e e'
      have e2 := i2 a2
      injection e2.1 with e; injection e2.2 with _ e'; subst e e'
      have e3 := i3 a3
      injection e3.1 with e; subst e
      exact ⟨rfl, e3.2⟩
    | expr a1 a2 =>
      have e1 := i1 a1
      exact absurd (by rw [e1.2]; rfl) a2
  | expr _ hn i1 =>
    intro o' r' h'
    cases h' with
    | exprIf a1 a2 a3 =>
      have e1 := i1 a1
      exact absurd (by rw [← e1.2]; rfl) hn
    | expr a1 a2 => exact i1 a1
  | disj _ _ i1 i2 =>
    intro o' r' h'
    cases h' with
    | disj a1 a2 =>
      have e1 := i1 a1
      injection e1.1 with e; have e' := e1.2; subst e e'
      have e2 := i2 a2
      injection e2.1 with e; subst e
      exact ⟨rfl, e2.2⟩
  | moreOr _ _ i1 i2 =>
    intro o' r' h'
    cases h' with
    | moreOr a1 a2 =>
      have e1 := i1 a1
      injection e1.1 with e; have e' := e1.2; subst e e'
      have e2 := i2 a2
      injection e2.1 with e; subst e
      exact ⟨rfl, e2.2⟩
    | moreStop a => exact absurd rfl a
  | conj _ _ i1 i2 =>
    intro o' r' h'
    cases h' with
    | conj a1 a2 =>
      have e1 := i1 a1
      injection e1.1 with e; have e' := e1.2; subst e e'
      have e2 := i2 a2
      injection e2.1 with e; subst e
      exact ⟨rfl, e2.2⟩
  | moreAnd _ _ i1 i2 =>
    intro o' r' h'
    cases h' with
    | moreAnd a1 a2 =>
      have e1 := i1 a1
      injection e1.1 with e; have e' := e1.2; subst e e'
      have e2 := i2 a2
      injection e2.1 with e; subst e
      exact ⟨rfl, e2.2⟩
    | moreStop a => exact absurd rfl a
  | moreStop hn =>
    intro o' r' h'
    cases h' with
    | moreOr a1 a2 => exact absurd rfl hn
    | moreAnd a1 a2 => exact absurd rfl hn
    | moreStop a => exact ⟨rfl, rfl⟩
  | invNot _ i1 =>
    intro o' r' h'
    cases h' with
    | invNot a1 =>
      have e1 := i1 a1
      injection e1.1 with e; subst e
      exact ⟨rfl, e1.2⟩
    | inv a1 a2 => exact absurd rfl a1
  | inv hn _ i1 =>
    intro o' r' h'
    cases h' with
    | invNot a1 => exact absurd rfl hn
    | inv a1 a2 => exact i1 a2
  | comp _ _ i1 i2 =>
    intro o' r' h'
    cases h' with
    | comp a1 a2 =>
      have e1 := i1 a1
      injection e1.1 with e; have e' := e1.2; subst e e'
      have e2 := i2 a2
      injection e2.1 with e; subst e
      exact ⟨rfl, e2.2⟩
  | cmpsMore _ _ i1 i2 =>
    intro o' r' h'
    cases h' with
    | cmpsMore a1 a2 =>
      have e1 := i1 a1
      injection e1.1 with e; have e' := e1.2; subst e e'
      have e2 := i2 a2
      injection e2.1 with e; subst e
      exact ⟨rfl, e2.2⟩
    | cmpsStop a => exact absurd rfl (a _)
  | cmpsStop hn =>
    intro o' r' h'
    cases h' with
    | cmpsMore a1 a2 => exact absurd rfl (hn _)
    | cmpsStop a => exact ⟨rfl, rfl⟩
  | lvl hlt _ _ i1 i2 =>
    intro o' r' h'
    cases h' with
    | lvl a0 a1 a2 =>
      have e1 := i1 a1
      injection e1.1 with e; have e' := e1.2; subst e e'
      exact i2 a2
    | lvlTop a => exact absurd hlt (by omega)
  | loopMore hl _ _ i1 i2 =>
    intro o' r' h'
    cases h' with
    | loopMore a0 a1 a2 =>
      have e1 := i1 a1
      injection e1.1 with e; have e' := e1.2; subst e e'
      exact i2 a2
    | loopStop a => exact absurd rfl (a _ hl)
  | loopStop hn =>
    intro o' r' h'
    cases h' with
    | loopMore a0 a1 a2 => exact absurd rfl (hn _ a0)
    | loopStop a => exact ⟨rfl, rfl⟩
  | lvlTop _ i1 =>
    intro o' r' h'
    cases h' with
    | lvl a0 a1 a2 => exact absurd a0 (by omega)
    | lvlTop a => exact i1 a
  | plus _ i1 =>
    intro o' r' h'
    cases h' with
    | plus a1 =>
      have e1 := i1 a1
      injection e1.1 with e; subst e
      exact ⟨rfl, e1.2⟩
    | factor a1 a2 a3 a4 => exact absurd rfl a1
  | minus _ i1 =>
    intro o' r' h'
    cases h' with
    | minus a1 =>
      have e1 := i1 a1
      injection e1.1 with e; subst e
      exact ⟨rfl, e1.2⟩
    | factor a1 a2 a3 a4 => exact absurd rfl a2
  | tilde _ i1 =>
    intro o' r' h'
    cases h' with
    | tilde a1 =>
      have e1 := i1 a1
      injection e1.1 with e; subst e
      exact ⟨rfl, e1.2⟩
    | factor a1 a2 a3 a4 => exact absurd rfl a3
  | factor h1 h2 h3 _ i1 =>
    intro o' r' h'
    cases h' with
    | plus a1 => exact absurd rfl h1
    | minus a1 => exact absurd rfl h2
    | tilde a1 => exact absurd rfl h3
    | factor a1 a2 a3 a4 => exact i1 a4
  | powerMore _ _ i1 i2 =>
    intro o' r' h'
    cases h' with
    | powerMore a1 a2 =>
      have e1 := i1 a1
      injection e1.1 with e; injection e1.2 with _ e'; subst e e'
      have e2 := i2 a2
      injection e2.1 with e; subst e
      exact ⟨rfl, e2.2⟩
    | power a1 a2 =>
      have e1 := i1 a1
      exact absurd (by rw [e1.2]; rfl) a2
  | power _ hn i1 =>
    intro o' r' h'
    cases h' with
    | powerMore a1 a2 =>
      have e1 := i1 a1
      exact absurd (by rw [← e1.2]; rfl) hn
    | power a1 a2 => exact i1 a1
  | primary _ _ i1 i2 =>
    intro o' r' h'
    cases h' with
    | primary a1 a2 =>
      have e1 := i1 a1
      injection e1.1 with e; have e' := e1.2; subst e e'
      exact i2 a2
  | trailDot _ i1 =>
    intro o' r' h'
    cases h' with
    | trailDot a1 => exact i1 a1
    | trailStop a1 a2 a3 => exact absurd rfl a1
  | trailCall _ _ i1 i2 =>
    intro o' r' h'
    cases h' with
    | trailCall a1 a2 =>
      have e1 := i1 a1
      injection e1.1 with e; have e' := e1.2; subst e e'
      exact i2 a2
    | trailStop a1 a2 a3 => exact absurd rfl a2
  | trailSubs _ _ i1 i2 =>
    intro o' r' h'
    cases h' with
    | trailSubs a1 a2 =>
      have e1 := i1 a1
      injection e1.1 with e; injection e1.2 with _ e'; subst e e'
      exact i2 a2
    | trailStop a1 a2 a3 => exact absurd rfl a3
  | trailStop h1 h2 h3 =>
    intro o' r' h'
    cases h' with
    | trailDot a1 => exact absurd rfl h1
    | trailCall a1 a2 => exact absurd rfl h2
    | trailSubs a1 a2 => exact absurd rfl h3
    | trailStop a1 a2 a3 => exact ⟨rfl, rfl⟩
  | argsNone =>
    intro o' r' h'
    cases h' with
    | argsNone => exact ⟨rfl, rfl⟩
    | args a1 a2 a3 => exact absurd rfl a1
  | args hn _ _ i1 i2 =>
    intro o' r' h'
    cases h' with
    | argsNone => exact absurd rfl hn
    | args a1 a2 a3 =>
      have e1 := i1 a2
      injection e1.1 with e; have e' := e1.2; subst e e'
      have e2 := i2 a3
      injection e2.1 with e; subst e
      exact ⟨rfl, e2.2⟩
  | argsStop =>
    intro o' r' h'
    cases h'
    exact ⟨rfl, rfl⟩
  | argsMore _ _ i1 i2 =>
    intro o' r' h'
    cases h' with
    | argsMore a1 a2 =>
      have e1 := i1 a1
      injection e1.1 with e; have e' := e1.2; subst e e'
      have e2 := i2 a2
      injection e2.1 with e; subst e
      exact ⟨rfl, e2.2⟩
  | name => intro o' r' h'; cases h'; exact ⟨rfl, rfl⟩
  | num => intro o' r' h'; cases h'; exact ⟨rfl, rfl⟩
  | str => intro o' r' h'; cases h'; exact ⟨rfl, rfl⟩
  | group _ i1 =>
    intro o' r' h'
    cases h' with
    | group a1 =>
      have e1 := i1 a1
      injection e1.1 with e; injection e1.2 with _ e'; subst e e'
      exact ⟨rfl, rfl⟩

/-! ### The tokens of an expression -/

def unTok : UnOp → Tok
  | .invert => .tilde
  | .not => kwNot
  | .uadd => .op .add
  | .usub => .op .sub

mutual
def toks : Expr → List Tok
  | .name s => [.name s]
  | .num neg s => if neg then [.op .sub, .num s] else [.num s]
  | .str s => [.str s]
  | .attr e a => toks e ++ [.dot, .name a]
  | .call f args => toks f ++ .lpar :: (toksSep .comma args ++ [.rpar])
  | .subs e i => toks e ++ .lbrack :: (toks i ++ [.rbrack])
  | .un op e => .lpar :: unTok op :: (toks e ++ [.rpar])
  | .bin op a b => .lpar :: (toks a ++ .op op :: (toks b ++ [.rpar]))
  | .pow a b => .lpar :: (toks a ++ .pow :: (toks b ++ [.rpar]))
  | .bool op es => .lpar :: (toksSep (kwOf op) es ++ [.rpar])
  | .cmp a rest => .lpar :: (toks a ++ (toksCmp rest ++ [.rpar]))
  | .ite t b o => .lpar :: (toks b ++ kwIf :: (toks t ++ kwElse :: (toks o ++ [.rpar])))

def toksSep (sep : Tok) : List Expr → List Tok
  | [] => []
  | [e] => toks e
  | e :: es => toks e ++ (sep :: toksSep sep es)

def toksCmp : List (CmpOp × Expr) → List Tok
  | [] => []
  | oe :: es => .cmp oe.1 :: (toks oe.2 ++ toksCmp es)
end

/-! ### Lifting through the levels -/

/-- No power and no trailer. -/
def NoTrail (r : List Tok) : Prop := r.head? ≠ some .pow ∧ r.head? ≠ some .dot ∧ r.head? ≠ some .lpar ∧ r.head? ≠ some .lbrack

theorem lvl_lift {ts : List Tok} {e : Expr} {r : List Tok} {m : Nat} (hm : m ≤ 6) (h : Reads (.lvl m) ts (.one e) r) :
    ∀ d k : Nat, k + d = m → (∀ op, k ≤ level op → level op < m → r.head? ≠ some (.op op)) → Reads (.lvl k) ts (.one e) r := by
  intro d
  induction d with
  | zero => intro k hk _; obtain rfl : k = m := by omega
            exact h
  | succ d ih =>
    intro k hk hop
    have h1 := ih (k + 1) (by omega) (fun op h1 h2 => hop op (by omega) h2)
    exact .lvl (by omega) h1 (.loopStop fun op ho => hop op (by omega) (by omega))

theorem level_lt (op : BinOp) : level op < 6 := by cases op <;> decide

section
variable {ts : List Tok} {e : Expr} {r : List Tok}

theorem factor_lvl (h : Reads .factor ts (.one e) r) {k : Nat} (hk : k ≤ 6) (hop : ∀ op, k ≤ level op → r.head? ≠ some (.op op)) : Reads (.lvl k) ts (.one e) r :=
  lvl_lift (m := 6) (Nat.le_refl 6) (.lvlTop h) (6 - k) k (by omega) (fun op h1 _ => hop op h1)

theorem lvl_inv {m : Nat} (hm : m ≤ 6) (h : Reads (.lvl m) ts (.one e) r) (hn : ts.head? ≠ some kwNot) (hop : ∀ op, r.head? ≠ some (.op op))
    (hc : ∀ c, r.head? ≠ some (.cmp c)) : Reads .inv ts (.one e) r :=
  .inv hn (Reads.comp (a := e) (ps := []) (lvl_lift hm h m 0 (by omega) (fun op _ _ => hop op)) (.cmpsStop hc))

theorem inv_conj (h : Reads .inv ts (.one e) r) (ha : r.head? ≠ some (kwOf .and)) : Reads .conj ts (.one e) r :=
  Reads.conj (a := e) (bs := []) h (.moreStop ha)

theorem conj_disj (h : Reads .conj ts (.one e) r) (ho : r.head? ≠ some (kwOf .or)) : Reads .disj ts (.one e) r :=
  Reads.disj (a := e) (bs := []) h (.moreStop ho)

/-- After an expression in parentheses, brackets or a list of arguments. -/
def Closing (r : List Tok) : Prop := r.head? = none ∨ r.head? = some .rpar ∨ r.head? = some .rbrack ∨ r.head? = some .comma

theorem Closing.ne (h : Closing r) {t : Tok} (h1 : t ≠ .rpar) (h2 : t ≠ .rbrack) (h3 : t ≠ .comma) : r.head? ≠ some t := by
  intro ht
  rcases h with h | h | h | h <;> rw [ht] at h
  · cases h
  · injection h with h; exact h1 h
  · injection h with h; exact h2 h
  · injection h with h; exact h3 h

theorem Closing.noTrail (h : Closing r) : NoTrail r :=
  ⟨h.ne nofun nofun nofun, h.ne nofun nofun nofun, h.ne nofun nofun nofun, h.ne nofun nofun nofun⟩

theorem disj_expr (h : Reads .disj ts (.one e) r) (hr : Closing r) : Reads .expr ts (.one e) r :=
  .expr h (hr.ne nofun nofun nofun)

theorem inv_expr (h : Reads .inv ts (.one e) r) (hr : Closing r) : Reads .expr ts (.one e) r :=
  disj_expr (conj_disj (inv_conj h (hr.ne nofun nofun nofun)) (hr.ne nofun nofun nofun)) hr

theorem lvl_expr {m : Nat} (hm : m ≤ 6) (h : Reads (.lvl m) ts (.one e) r) (hn : ts.head? ≠ some kwNot) (hr : Closing r) : Reads .expr ts (.one e) r :=
  inv_expr (lvl_inv hm h hn (fun _ => hr.ne nofun nofun nofun) (fun _ => hr.ne nofun nofun nofun)) hr

theorem factor_expr (h : Reads .factor ts (.one e) r) (hn : ts.head? ≠ some kwNot) (hr : Closing r) : Reads .expr ts (.one e) r :=
  lvl_expr (Nat.le_refl 6) (.lvlTop h) hn hr

end

theorem closing_rpar (r : List Tok) : Closing (.rpar :: r) := Or.inr (Or.inl rfl)
theorem closing_rbrack (r : List Tok) : Closing (.rbrack :: r) := Or.inr (Or.inr (Or.inl rfl))
theorem closing_comma (r : List Tok) : Closing (.comma :: r) := Or.inr (Or.inr (Or.inr rfl))

/-! ### Reading the tokens of an expression -/

/-- The first token of an expression. -/
def Begins : Tok → Prop
  | .name _ => True
  | .num _ => True
  | .str _ => True
  | .lpar => True
  | _ => False

/-- What is proved of an expression. -/
structure Good (e : Expr) : Prop where
  begins : ¬ Negative e → ∃ t ts, toks e = t :: ts ∧ Begins t
  primary : ¬ Negative e → ∀ rest o r, Reads (.trail (signs e)) rest (.one o) r → Reads .primary (toks e ++ rest) (.one o) r
  negative : Negative e → ∃ s, e = .num true s

theorem Good.of_atom {e : Expr} (hneg : ¬ Negative e) (hb : ∃ t ts, toks e = t :: ts ∧ Begins t)
    (h : ∀ rest, Reads .atom (toks e ++ rest) (.one (signs e)) rest) : Good e :=
  ⟨fun _ => hb, fun _ rest _ _ hr => .primary (h rest) hr, fun hn => absurd hn hneg⟩

/-- An expression in parentheses. -/
theorem Good.of_group {e : Expr} {inner : List Tok} (hneg : ¬ Negative e) (ht : toks e = .lpar :: (inner ++ [.rpar]))
    (h : ∀ rest, Reads .expr (inner ++ .rpar :: rest) (.one (signs e)) (.rpar :: rest)) : Good e :=
  Good.of_atom hneg ⟨_, _, ht, trivial⟩ (by
    intro rest
    rw [ht]
    have := Reads.group (h rest)
    simpa using this)

theorem Good.factor {e : Expr} (g : Good e) {rest : List Tok} (hr : NoTrail rest) : Reads .factor (toks e ++ rest) (.one (signs e)) rest := by
  have key : ∀ e : Expr, Good e → ¬ Negative e → Reads .factor (toks e ++ rest) (.one (signs e)) rest := by
    intro e g hn
    obtain ⟨t, ts, ht, hb⟩ := g.begins hn
    have hp := g.primary hn rest _ _ (.trailStop hr.2.1 hr.2.2.1 hr.2.2.2)
    refine .factor ?_ ?_ ?_ (.power hp hr.1) <;> rw [ht] <;> intro h <;> cases h <;> exact hb
  by_cases hn : Negative e
  · obtain ⟨s, rfl⟩ := g.negative hn
    have g' : Good (.num false s) := Good.of_atom (fun h => nomatch h) ⟨.num s, [], rfl, trivial⟩ (fun _ => .num)
    have := key (.num false s) g' (fun h => nomatch h)
    exact .minus this
  · exact key e g hn

theorem Good.not_kwNot {e : Expr} (g : Good e) (rest : List Tok) : (toks e ++ rest).head? ≠ some kwNot := by
  by_cases hn : Negative e
  · obtain ⟨s, rfl⟩ := g.negative hn
    intro h; cases h
  · obtain ⟨t, ts, ht, hb⟩ := g.begins hn
    rw [ht]
    intro h
    cases h
    exact hb

theorem Good.not_rpar {e : Expr} (g : Good e) (rest : List Tok) : (toks e ++ rest).head? ≠ some .rpar := by
  by_cases hn : Negative e
  · obtain ⟨s, rfl⟩ := g.negative hn
    intro h; cases h
  · obtain ⟨t, ts, ht, hb⟩ := g.begins hn
    rw [ht]
    intro h
    cases h
    exact hb

theorem Good.expr {e : Expr} (g : Good e) {rest : List Tok} (hr : Closing rest) : Reads .expr (toks e ++ rest) (.one (signs e)) rest :=
  factor_expr (g.factor hr.noTrail) (g.not_kwNot rest) hr

theorem Good.lvl {e : Expr} (g : Good e) {rest : List Tok} (hr : NoTrail rest) {k : Nat} (hk : k ≤ 6) (hop : ∀ op, k ≤ level op → rest.head? ≠ some (.op op)) :
    Reads (.lvl k) (toks e ++ rest) (.one (signs e)) rest :=
  factor_lvl (g.factor hr) hk hop

/-- Before a keyword. -/
theorem Good.inv {e : Expr} (g : Good e) (s : Text) (rest : List Tok) : Reads .inv (toks e ++ .kw s :: rest) (.one (signs e)) (.kw s :: rest) :=
  lvl_inv (Nat.le_refl 6) (.lvlTop (g.factor ⟨nofun, nofun, nofun, nofun⟩)) (g.not_kwNot _) nofun nofun

theorem Good.inv_closing {e : Expr} (g : Good e) {rest : List Tok} (hr : Closing rest) : Reads .inv (toks e ++ rest) (.one (signs e)) rest :=
  lvl_inv (Nat.le_refl 6) (.lvlTop (g.factor hr.noTrail)) (g.not_kwNot _) (fun _ => hr.ne nofun nofun nofun) (fun _ => hr.ne nofun nofun nofun)

theorem good_args {es : List Expr} (h : ∀ e ∈ es, Good e) (rest : List Tok) : Reads .args (toksSep .comma es ++ .rpar :: rest) (.many (signsList es)) rest := by
  have tail : ∀ es : List Expr, (∀ e ∈ es, Good e) → ∀ e : Expr, Good e → ∃ ts, toksSep .comma (e :: es) ++ .rpar :: rest = toks e ++ ts ∧ Closing ts ∧
      Reads .argsTail ts (.many (signsList es)) rest := by
    intro es
    induction es with
    | nil => intro _ e _; exact ⟨_, rfl, closing_rpar _, .argsStop⟩
    | cons e' es ih =>
      intro hes e _
      obtain ⟨ts, h1, h2, h3⟩ := ih (fun x hx => hes x (List.mem_cons_of_mem _ hx)) e' (hes e' List.mem_cons_self)
      refine ⟨.comma :: (toks e' ++ ts), ?_, closing_comma _, ?_⟩
      · rw [← h1]; simp [toksSep]
      · exact .argsMore ((hes e' List.mem_cons_self).expr h2) h3
  cases es with
  | nil => exact .argsNone
  | cons e es =>
    have ge := h e List.mem_cons_self
    obtain ⟨ts, h1, h2, h3⟩ := tail es (fun x hx => h x (List.mem_cons_of_mem _ hx)) e ge
    rw [h1]
    exact .args (ge.not_rpar ts) (ge.expr h2) h3

theorem good_and {e : Expr} (g : Good e) {es : List Expr} (h : ∀ e ∈ es, Good e) (rest : List Tok) :
    ∃ ts, toksSep (kwOf .and) (e :: es) ++ .rpar :: rest = toks e ++ ts ∧ Reads .inv (toks e ++ ts) (.one (signs e)) ts ∧
      Reads (.more .and) ts (.many (signsList es)) (.rpar :: rest) := by
  induction es generalizing e with
  | nil => exact ⟨_, rfl, g.inv_closing (closing_rpar _), .moreStop nofun⟩
  | cons e' es ih =>
    obtain ⟨ts, h1, h2, h3⟩ := ih (h e' List.mem_cons_self) (fun x hx => h x (List.mem_cons_of_mem _ hx))
    refine ⟨kwOf .and :: (toks e' ++ ts), ?_, g.inv _ _, .moreAnd h2 h3⟩
    rw [← h1]; simp [toksSep]

theorem good_or {e : Expr} (g : Good e) {es : List Expr} (h : ∀ e ∈ es, Good e) (rest : List Tok) :
    ∃ ts, toksSep (kwOf .or) (e :: es) ++ .rpar :: rest = toks e ++ ts ∧ Reads .conj (toks e ++ ts) (.one (signs e)) ts ∧
      Reads (.more .or) ts (.many (signsList es)) (.rpar :: rest) := by
  induction es generalizing e with
  | nil => exact ⟨_, rfl, inv_conj (g.inv_closing (closing_rpar _)) nofun, .moreStop nofun⟩
  | cons e' es ih =>
    obtain ⟨ts, h1, h2, h3⟩ := ih (h e' List.mem_cons_self) (fun x hx => h x (List.mem_cons_of_mem _ hx))
    refine ⟨kwOf .or :: (toks e' ++ ts), ?_, inv_conj (g.inv _ _) (by simp [kwOf]), .moreOr h2 h3⟩
    rw [← h1]; simp [toksSep]

theorem good_cmps {ps : List (CmpOp × Expr)} (h : ∀ p ∈ ps, Good p.2) (rest : List Tok) :
    Reads .cmps (toksCmp ps ++ .rpar :: rest) (.pairs (signsPairs ps)) (.rpar :: rest) ∧
    NoTrail (toksCmp ps ++ .rpar :: rest) ∧ (∀ op, (toksCmp ps ++ .rpar :: rest).head? ≠ some (.op op)) := by
  induction ps with
  | nil => exact ⟨.cmpsStop nofun, ⟨nofun, nofun, nofun, nofun⟩, nofun⟩
  | cons p ps ih =>
    obtain ⟨h1, h2, h3⟩ := ih (fun x hx => h x (List.mem_cons_of_mem _ hx))
    refine ⟨?_, ⟨nofun, nofun, nofun, nofun⟩, nofun⟩
    have := Reads.cmpsMore (op := p.1) ((h p List.mem_cons_self).lvl h2 (k := 0) (by omega) (fun op _ => h3 op)) h1
    simpa [toksCmp, signsPairs] using this

theorem good {e : Expr} (h : WF e) : Good e := by
  induction h with
  | name _ => exact Good.of_atom (fun h => nomatch h) ⟨_, _, rfl, trivial⟩ (fun _ => .name)
  | @num neg s _ =>
    cases neg with
    | false => exact Good.of_atom (fun h => nomatch h) ⟨.num s, [], rfl, trivial⟩ (fun _ => .num)
    | true => exact ⟨fun h => absurd rfl h, fun h => absurd rfl h, fun _ => ⟨s, rfl⟩⟩
  | str _ => exact Good.of_atom (fun h => nomatch h) ⟨_, _, rfl, trivial⟩ (fun _ => .str)
  | @attr e a _ hnum _ g =>
    have hneg : ¬ Negative e := fun h => by obtain ⟨s, rfl⟩ := g.negative h; exact hnum trivial
    refine ⟨fun _ => ?_, fun _ rest o r hr => ?_, fun h => nomatch h⟩
    · obtain ⟨t, ts, ht, hb⟩ := g.begins hneg
      exact ⟨t, _, by rw [toks, ht]; rfl, hb⟩
    · have := g.primary hneg (.dot :: .name a :: rest) o r (.trailDot hr)
      simpa [toks] using this
  | @call f args _ hneg _ g gs =>
    refine ⟨fun _ => ?_, fun _ rest o r hr => ?_, fun h => nomatch h⟩
    · obtain ⟨t, ts, ht, hb⟩ := g.begins hneg
      exact ⟨t, _, by rw [toks, ht]; rfl, hb⟩
    · have := g.primary hneg (.lpar :: (toksSep .comma args ++ .rpar :: rest)) o r (.trailCall (good_args gs rest) hr)
      simpa [toks] using this
  | @subs e i _ hneg _ g gi =>
    refine ⟨fun _ => ?_, fun _ rest o r hr => ?_, fun h => nomatch h⟩
    · obtain ⟨t, ts, ht, hb⟩ := g.begins hneg
      exact ⟨t, _, by rw [toks, ht]; rfl, hb⟩
    · have := g.primary hneg (.lbrack :: (toks i ++ .rbrack :: rest)) o r (.trailSubs (gi.expr (closing_rbrack rest)) hr)
      simpa [toks] using this
  | @un op e _ g =>
    refine Good.of_group (inner := unTok op :: toks e) (fun h => nomatch h) (by simp [toks]) (fun rest => ?_)
    have hf := g.factor (closing_rpar rest).noTrail
    cases op with
    | invert => exact factor_expr (.tilde hf) (by simp [unTok, kwNot]) (closing_rpar rest)
    | uadd => exact factor_expr (.plus hf) (by simp [unTok, kwNot]) (closing_rpar rest)
    | usub => exact factor_expr (.minus hf) (by simp [unTok, kwNot]) (closing_rpar rest)
    | not => exact inv_expr (.invNot (g.inv_closing (closing_rpar rest))) (closing_rpar rest)
  | @bin op a b _ _ ga gb =>
    refine Good.of_group (inner := toks a ++ .op op :: toks b) (fun h => nomatch h) (by simp [toks]) (fun rest => ?_)
    have hl := level_lt op
    have h1 := ga.lvl (rest := .op op :: (toks b ++ .rpar :: rest)) ⟨nofun, nofun, nofun, nofun⟩ (k := level op + 1) hl (by
      intro op' h' he
      injection he with he
      injection he with he
      subst he
      omega)
    have h2 := gb.lvl (rest := .rpar :: rest) (closing_rpar rest).noTrail (k := level op + 1) hl nofun
    have h3 : Reads (.lvl (level op)) (toks a ++ .op op :: (toks b ++ .rpar :: rest)) (.one (.bin op (signs a) (signs b))) (.rpar :: rest) :=
      .lvl hl h1 (.loopMore rfl h2 (.loopStop nofun))
    have h4 := lvl_expr (Nat.le_of_lt hl) h3 (ga.not_kwNot _) (closing_rpar rest)
    simpa [signs] using h4
  | @pow a b _ hneg _ ga gb =>
    refine Good.of_group (inner := toks a ++ .pow :: toks b) (fun h => nomatch h) (by simp [toks]) (fun rest => ?_)
    obtain ⟨t, ts, ht, hb⟩ := ga.begins hneg
    have h1 := ga.primary hneg (.pow :: (toks b ++ .rpar :: rest)) _ _ (.trailStop nofun nofun nofun)
    have h2 : Reads .power (toks a ++ .pow :: (toks b ++ .rpar :: rest)) (.one (.pow (signs a) (signs b))) (.rpar :: rest) :=
      .powerMore h1 (gb.factor (closing_rpar rest).noTrail)
    have h3 : Reads .factor (toks a ++ .pow :: (toks b ++ .rpar :: rest)) (.one (.pow (signs a) (signs b))) (.rpar :: rest) := by
      refine .factor ?_ ?_ ?_ h2 <;> rw [ht] <;> intro h <;> cases h <;> exact hb
    have h4 := factor_expr h3 (ga.not_kwNot _) (closing_rpar rest)
    simpa [signs] using h4
  | @bool op es hlen _ gs =>
    refine Good.of_group (inner := toksSep (kwOf op) es) (fun h => nomatch h) (by simp [toks]) (fun rest => ?_)
    match es, hlen, gs with
    | a :: b :: es, _, gs =>
      cases op with
      | and =>
        obtain ⟨ts, h1, h2, h3⟩ := good_and (gs a List.mem_cons_self) (fun x hx => gs x (List.mem_cons_of_mem _ hx)) rest
        rw [h1]
        exact disj_expr (conj_disj (.conj h2 h3) nofun) (closing_rpar rest)
      | or =>
        obtain ⟨ts, h1, h2, h3⟩ := good_or (gs a List.mem_cons_self) (fun x hx => gs x (List.mem_cons_of_mem _ hx)) rest
        rw [h1]
        exact disj_expr (.disj h2 h3) (closing_rpar rest)
  | @cmp a ps _ hne _ ga gs =>
    refine Good.of_group (inner := toks a ++ toksCmp ps) (fun h => nomatch h) (by simp [toks]) (fun rest => ?_)
    obtain ⟨h1, h2, h3⟩ := good_cmps gs rest
    have h4 := ga.lvl h2 (k := 0) (by omega) (fun op _ => h3 op)
    match ps, hne, h1, h4 with
    | p :: ps, _, h1, h4 =>
      have h5 : Reads .comp (toks a ++ (toksCmp (p :: ps) ++ .rpar :: rest)) (.one (.cmp (signs a) (signsPairs (p :: ps)))) (.rpar :: rest) := .comp h4 h1
      have h6 := inv_expr (.inv (ga.not_kwNot _) h5) (closing_rpar rest)
      simpa [signs] using h6
  | @ite t b o _ _ _ gt gb go =>
    refine Good.of_group (inner := toks b ++ kwIf :: (toks t ++ kwElse :: toks o)) (fun h => nomatch h) (by simp [toks]) (fun rest => ?_)
    have h1 := conj_disj (inv_conj (gb.inv ['i', 'f'] (toks t ++ kwElse :: (toks o ++ .rpar :: rest))) (by simp [kwOf])) (by simp [kwOf])
    have h2 := conj_disj (inv_conj (gt.inv ['e', 'l', 's', 'e'] (toks o ++ .rpar :: rest)) (by simp [kwOf])) (by simp [kwOf])
    have h3 := go.expr (closing_rpar rest)
    have h4 : Reads .expr (toks b ++ kwIf :: (toks t ++ kwElse :: (toks o ++ .rpar :: rest))) (.one (.ite (signs t) (signs b) (signs o))) (.rpar :: rest) :=
      .exprIf h1 h2 h3
    simpa [signs] using h4

end Verif.Spec.PyText
