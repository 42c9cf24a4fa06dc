import Verif.Spec.IrText
import Verif.Proofs.PyLex

/-!
The text of a symbolic value determines the value.
-/

set_option autoImplicit false

namespace Verif.Spec.IrText

open Verif.Unparse (Text Expr unparse)
open Verif.IrText
open Verif.Spec.PyText

/-! ### Tokens -/

def kwFor : Tok := .kw ['f', 'o', 'r']
def kwIn : Tok := .kw ['i', 'n']

/-- Values without arguments of functions. -/
def Nice : Leaf → Prop
  | .expr e => Source e
  | .hole _ => False
  | .red _ e it v => Source e ∧ Name it ∧ Source v

def leafToks : Leaf → List Tok
  | .expr e => toks e
  | .hole _ => []
  | .red op e it v => .cmp .lt :: .name (['R', 'e', 'd', 'u', 'c', 't', 'i', 'o', 'n'] : Text) :: .name op.text :: (toks e ++ (kwFor :: .name it :: kwIn :: (toks v ++ [.cmp .gt])))

def joinToks : List (List Tok) → List Tok
  | [] => []
  | [t] => t
  | t :: ts => t ++ (.comma :: joinToks ts)

def caseToks (c : Case) : List Tok := leafToks c.val ++ (kwIf :: .lbrack :: (joinToks (c.conds.map leafToks) ++ [.rbrack]))

def cellToks : Cell → List Tok
  | .leaf l => leafToks l
  | .cond cs => .cmp .lt :: .name (['C', 'o', 'n', 'd', 'V', 'a', 'l'] : Text) :: .lbrack :: (joinToks (cs.map caseToks) ++ [.rbrack, .cmp .gt])

def itemToks (p : Text × Cell) : List Tok := .name p.1 :: .colon :: cellToks p.2

def valueToks : Value → List Tok
  | .cell c => cellToks c
  | .obj d => .lbrace :: (joinToks (d.map itemToks) ++ [.rbrace])

/-! ### From text to tokens -/

/-- What follows a value in a text. -/
def Stop (rest : Text) : Prop := rest = [] ∨ ∃ c cs, rest = c :: cs ∧ (c = ' ' ∨ c = ',' ∨ c = ']' ∨ c = '}')

theorem Stop.follows {rest : Text} (h : Stop rest) (e : Expr) : Follows e rest := by
  rcases h with rfl | ⟨c, cs, rfl, rfl | rfl | rfl | rfl⟩
  · exact ⟨fun _ hc => (nomatch hc), fun _ hc => (nomatch hc)⟩
  all_goals exact follows_of (by decide) (by decide)

theorem lex_gt {rest : Text} {ts : List Tok} (h : Stop rest) (hl : Lex rest ts) : Lex ('>' :: rest) (.cmp .gt :: ts) := by
  rcases h with rfl | ⟨c, cs, rfl, rfl | rfl | rfl | rfl⟩ <;>
    exact lex_tok (by decide) (by rw [scan_op (by decide) (by decide) (by decide)]; rfl) hl

theorem lex_colon {cs : Text} {ts : List Tok} (h : Lex cs ts) : Lex (':' :: cs) (.colon :: ts) :=
  lex_tok (by decide) (by rw [scan_op (by decide) (by decide) (by decide)]; rfl) h

theorem lex_lbrace {cs : Text} {ts : List Tok} (h : Lex cs ts) : Lex ('{' :: cs) (.lbrace :: ts) :=
  lex_tok (by decide) (by rw [scan_op (by decide) (by decide) (by decide)]; rfl) h

theorem lex_rbrace {cs : Text} {ts : List Tok} (h : Lex cs ts) : Lex ('}' :: cs) (.rbrace :: ts) :=
  lex_tok (by decide) (by rw [scan_op (by decide) (by decide) (by decide)]; rfl) h

theorem name_reduction : Name (['R', 'e', 'd', 'u', 'c', 't', 'i', 'o', 'n'] : Text) := ⟨⟨'R', (['e', 'd', 'u', 'c', 't', 'i', 'o', 'n'] : Text), rfl, by decide, by decide⟩, by decide +kernel⟩
theorem name_condVal : Name (['C', 'o', 'n', 'd', 'V', 'a', 'l'] : Text) := ⟨⟨'C', (['o', 'n', 'd', 'V', 'a', 'l'] : Text), rfl, by decide, by decide⟩, by decide +kernel⟩
theorem name_hole : Name (['H', 'o', 'l', 'e'] : Text) := ⟨⟨'H', (['o', 'l', 'e'] : Text), rfl, by decide, by decide⟩, by decide +kernel⟩
theorem name_none : Name (['N', 'o', 'n', 'e'] : Text) := ⟨⟨'N', (['o', 'n', 'e'] : Text), rfl, by decide, by decide⟩, by decide +kernel⟩

theorem name_op (op : RedOp) : Name op.text := by
  cases op
  · exact ⟨⟨'a', (['n', 'y'] : Text), rfl, by decide, by decide⟩, by decide +kernel⟩
  · exact ⟨⟨'a', (['l', 'l'] : Text), rfl, by decide, by decide⟩, by decide +kernel⟩
  · exact ⟨⟨'m', (['a', 'x'] : Text), rfl, by decide, by decide⟩, by decide +kernel⟩
  · exact ⟨⟨'m', (['i', 'n'] : Text), rfl, by decide, by decide⟩, by decide +kernel⟩
  · exact ⟨⟨'s', (['u', 'm'] : Text), rfl, by decide, by decide⟩, by decide +kernel⟩

theorem lex_for {cs : Text} {ts : List Tok} (h : Lex cs ts) : Lex (['f', 'o', 'r'] ++ ' ' :: cs) (kwFor :: ts) :=
  lex_kw (by decide +kernel) (by decide) (by decide) h

theorem lex_in {cs : Text} {ts : List Tok} (h : Lex cs ts) : Lex (['i', 'n'] ++ ' ' :: cs) (kwIn :: ts) :=
  lex_kw (by decide +kernel) (by decide) (by decide) h

theorem lex_lt_name {c : Char} {s rest : Text} {ts : List Tok} (hc : identStart c = true) (hl : Lex (c :: s ++ rest) ts) : Lex ('<' :: (c :: s ++ rest)) (.cmp .lt :: ts) := by
  have h1 : c ≠ '<' := by rintro rfl; exact absurd hc (by decide)
  have h2 : c ≠ '=' := by rintro rfl; exact absurd hc (by decide)
  refine lex_tok (rest := c :: s ++ rest) (by decide) ?_ hl
  rw [scan_op (by decide) (by decide) (by decide)]
  unfold scanOp
  split <;> simp_all

/-- What is proved of the text of a part. -/
def LexAs (text : Text) (ts : List Tok) : Prop := ∀ rest ts', Stop rest → Lex rest ts' → Lex (text ++ rest) (ts ++ ts')

theorem lex_leaf {l : Leaf} (h : Nice l) : LexAs (dumpLeaf l) (leafToks l) := by
  intro rest ts' hr hl
  cases l with
  | expr e => exact lex_unparse h.1 _ _ (hr.follows e) hl
  | hole n => exact absurd h id
  | red op e it v =>
    obtain ⟨he, hit, hv⟩ := h
    have h1 := lex_unparse hv.1 _ _ (follows_of (c := '>') (by decide) (by decide)) (lex_gt hr hl)
    have h2 := lex_name hit (ends_space _) (lex_space (lex_in h1))
    have h3 := lex_unparse he.1 _ _ f_space (lex_space (lex_for h2))
    have h4 := lex_name (name_op op) (ends_space _) (lex_space h3)
    have h5 := lex_name name_reduction (ends_space _) (lex_space h4)
    have h6 := lex_lt_name (c := 'R') (s := (['e', 'd', 'u', 'c', 't', 'i', 'o', 'n'] : Text)) (by decide) h5
    simpa [dumpLeaf, leafToks] using h6

theorem stop_comma (cs : Text) : Stop (',' :: cs) := Or.inr ⟨_, _, rfl, Or.inr (Or.inl rfl)⟩
theorem stop_space (cs : Text) : Stop (' ' :: cs) := Or.inr ⟨_, _, rfl, Or.inl rfl⟩
theorem stop_rbrack (cs : Text) : Stop (']' :: cs) := Or.inr ⟨_, _, rfl, Or.inr (Or.inr (Or.inl rfl))⟩
theorem stop_rbrace (cs : Text) : Stop ('}' :: cs) := Or.inr ⟨_, _, rfl, Or.inr (Or.inr (Or.inr rfl))⟩

theorem lex_join {α : Type} {f : α → Text} {g : α → List Tok} {as : List α} (h : ∀ a ∈ as, LexAs (f a) (g a)) {rest : Text} {ts : List Tok} (hr : Stop rest)
    (hl : Lex rest ts) : Lex (join (as.map f) ++ rest) (joinToks (as.map g) ++ ts) := by
  induction as with
  | nil => exact hl
  | cons a as ih =>
    cases as with
    | nil => exact h a List.mem_cons_self _ _ hr hl
    | cons b as =>
      have h1 := ih (fun x hx => h x (List.mem_cons_of_mem _ hx))
      have h2 := h a List.mem_cons_self _ _ (stop_comma _) (lex_comma (lex_space h1))
      simpa [join, joinToks] using h2

def NiceCase (c : Case) : Prop := (∀ l ∈ c.conds, Nice l) ∧ Nice c.val

def NiceCell : Cell → Prop
  | .leaf l => Nice l
  | .cond cs => ∀ c ∈ cs, NiceCase c

def NiceValue : Value → Prop
  | .cell c => NiceCell c
  | .obj d => ∀ p ∈ d, Name p.1 ∧ NiceCell p.2

theorem lex_case {c : Case} (h : NiceCase c) : LexAs (dumpCase c) (caseToks c) := by
  intro rest ts' _ hl
  have h1 := lex_join (fun a ha => lex_leaf (h.1 a ha)) (stop_rbrack rest) (lex_rbrack hl)
  have h2 := lex_leaf h.2 _ _ (stop_space _) (lex_space (lex_if (lex_lbrack h1)))
  simpa [dumpCase, caseToks] using h2

theorem lex_cell {c : Cell} (h : NiceCell c) : LexAs (dumpCell c) (cellToks c) := by
  intro rest ts' hr hl
  cases c with
  | leaf l => exact lex_leaf h _ _ hr hl
  | cond cs =>
    have h1 := lex_join (fun a ha => lex_case (h a ha)) (stop_rbrack _) (lex_rbrack (lex_gt hr hl))
    have h2 := lex_name name_condVal (ends_space _) (lex_space (lex_lbrack h1))
    have h6 := lex_lt_name (c := 'C') (s := (['o', 'n', 'd', 'V', 'a', 'l'] : Text)) (by decide) h2
    simpa [dumpCell, cellToks] using h6

theorem lex_item {p : Text × Cell} (h : Name p.1 ∧ NiceCell p.2) : LexAs (dumpItem p) (itemToks p) := by
  intro rest ts' hr hl
  have h1 := lex_name h.1 (ends_cons (by decide)) (lex_colon (lex_space (lex_cell h.2 _ _ hr hl)))
  simpa [dumpItem, itemToks] using h1

theorem lex_value {v : Value} (h : NiceValue v) : Lex (dump (some v)) (valueToks v) := by
  cases v with
  | cell c =>
    have := lex_cell h [] [] (Or.inl rfl) lex_nil
    rw [List.append_nil, List.append_nil] at this
    exact this
  | obj d =>
    have h1 := lex_join (fun a ha => lex_item (h a ha)) (stop_rbrace []) (lex_rbrace lex_nil)
    exact lex_lbrace h1

/-! ### From tokens to values -/

theorem nt_if (r : List Tok) : NoTrail (kwIf :: r) := ⟨nofun, nofun, nofun, nofun⟩
theorem nt_for (r : List Tok) : NoTrail (kwFor :: r) := ⟨nofun, nofun, nofun, nofun⟩
theorem nt_cmp (c : Verif.Unparse.CmpOp) (r : List Tok) : NoTrail (.cmp c :: r) := ⟨nofun, nofun, nofun, nofun⟩
theorem nt_comma (r : List Tok) : NoTrail (.comma :: r) := ⟨nofun, nofun, nofun, nofun⟩
theorem nt_rbrack (r : List Tok) : NoTrail (.rbrack :: r) := ⟨nofun, nofun, nofun, nofun⟩
theorem nt_rbrace (r : List Tok) : NoTrail (.rbrace :: r) := ⟨nofun, nofun, nofun, nofun⟩
theorem nt_nil : NoTrail [] := ⟨nofun, nofun, nofun, nofun⟩

theorem expr_inj {e e' : Expr} (h : Source e) (h' : Source e') {r r' : List Tok} (hr : NoTrail r) (hr' : NoTrail r') (ht : toks e ++ r = toks e' ++ r') : e = e' ∧ r = r' := by
  have h1 := (good h.1).factor hr
  have h2 := (good h'.1).factor hr'
  rw [← ht] at h2
  obtain ⟨ho, hrr⟩ := reads_det h1 h2
  rw [h.2, h'.2] at ho
  injection ho with ho
  exact ⟨ho.symm, hrr.symm⟩

/-- The first token of a part. -/
def Start (t : Tok) : Prop := t ≠ .rbrack ∧ t ≠ .rbrace ∧ t ≠ .lbrace

theorem toks_first {e : Expr} (h : WF e) : ∃ t ts, toks e = t :: ts ∧ Start t ∧ ∀ c, t ≠ .cmp c := by
  by_cases hn : Negative e
  · obtain ⟨s, rfl⟩ := (good h).negative hn
    exact ⟨_, _, rfl, ⟨nofun, nofun, nofun⟩, nofun⟩
  · obtain ⟨t, ts, h1, h2⟩ := (good h).begins hn
    refine ⟨t, ts, h1, ⟨?_, ?_, ?_⟩, ?_⟩
    · rintro rfl; exact h2
    · rintro rfl; exact h2
    · rintro rfl; exact h2
    · rintro c rfl; exact h2

theorem leaf_first {l : Leaf} (h : Nice l) : ∃ t ts, leafToks l = t :: ts ∧ Start t := by
  cases l with
  | expr e => obtain ⟨t, ts, h1, h2, _⟩ := toks_first h.1; exact ⟨t, ts, h1, h2⟩
  | hole n => exact absurd h id
  | red op e it v => exact ⟨_, _, rfl, nofun, nofun, nofun⟩

theorem op_inj {a b : RedOp} (h : a.text = b.text) : a = b := by
  revert h; cases a <;> cases b <;> decide

theorem leaf_inj {a b : Leaf} (ha : Nice a) (hb : Nice b) {r r' : List Tok} (hr : NoTrail r) (hr' : NoTrail r') (ht : leafToks a ++ r = leafToks b ++ r') : a = b ∧ r = r' := by
  cases a with
  | hole n => exact absurd ha id
  | expr e =>
    cases b with
    | hole n => exact absurd hb id
    | expr e' => obtain ⟨rfl, h⟩ := expr_inj ha hb hr hr' ht; exact ⟨rfl, h⟩
    | red op e' it v =>
      obtain ⟨t, ts, h1, _, h2⟩ := toks_first ha.1
      rw [leafToks, h1, leafToks, List.cons_append, List.cons_append] at ht
      injection ht with ht _
      exact absurd ht (h2 _)
  | red op e it v =>
    cases b with
    | hole n => exact absurd hb id
    | expr e' =>
      obtain ⟨t, ts, h1, _, h2⟩ := toks_first hb.1
      rw [leafToks, leafToks, h1, List.cons_append, List.cons_append] at ht
      injection ht with ht _
      exact absurd ht.symm (h2 _)
    | red op' e' it' v' =>
      simp only [leafToks, List.cons_append, List.append_assoc, List.nil_append, List.cons.injEq, true_and, Tok.name.injEq] at ht
      obtain ⟨h1, h2⟩ := ht
      obtain ⟨rfl, h3⟩ := expr_inj ha.1 hb.1 (nt_for _) (nt_for _) h2
      simp only [List.cons.injEq, true_and, Tok.name.injEq] at h3
      obtain ⟨rfl, h4⟩ := h3
      obtain ⟨rfl, h5⟩ := expr_inj ha.2.2 hb.2.2 (nt_cmp _ _) (nt_cmp _ _) h4
      obtain rfl := op_inj h1
      injection h5 with _ h5
      exact ⟨rfl, h5⟩

/-- The tokens of a part determine the part. -/
def Inj {α : Type} (P : α → Prop) (g : α → List Tok) : Prop :=
  ∀ a b, P a → P b → ∀ r r' : List Tok, NoTrail r → NoTrail r' → g a ++ r = g b ++ r' → a = b ∧ r = r'

theorem join_inj {α : Type} {P : α → Prop} {g : α → List Tok} (hi : Inj P g) (hs : ∀ a, P a → ∃ t ts, g a = t :: ts ∧ Start t) {stop : Tok}
    (hstop : stop = .rbrack ∨ stop = .rbrace) {as bs : List α} (ha : ∀ a ∈ as, P a) (hb : ∀ b ∈ bs, P b) {r r' : List Tok}
    (ht : joinToks (as.map g) ++ stop :: r = joinToks (bs.map g) ++ stop :: r') : as = bs ∧ r = r' := by
  have hnt : ∀ r, NoTrail (stop :: r) := by rcases hstop with rfl | rfl <;> intro r <;> exact ⟨nofun, nofun, nofun, nofun⟩
  have hne : ∀ t, Start t → t ≠ stop := by rcases hstop with rfl | rfl <;> intro t h; exacts [h.1, h.2.1]
  have hfirst : ∀ (a : α) (as : List α), P a → ∀ r, ∃ t ts, joinToks ((a :: as).map g) ++ r = t :: ts ∧ Start t := by
    intro a as h r
    obtain ⟨t, ts, h1, h2⟩ := hs a h
    cases as with
    | nil => exact ⟨t, ts ++ r, by simp [joinToks, h1], h2⟩
    | cons b as => exact ⟨t, _, by simp only [List.map_cons, joinToks, h1, List.cons_append, List.append_assoc]; rfl, h2⟩
  induction as generalizing bs r r' with
  | nil =>
    cases bs with
    | nil => simp only [List.map_nil, joinToks, List.nil_append, List.cons.injEq, true_and] at ht; exact ⟨rfl, ht⟩
    | cons b bs =>
      obtain ⟨t, ts, h1, h2⟩ := hfirst b bs (hb b List.mem_cons_self) (stop :: r')
      rw [h1, List.map_nil, joinToks, List.nil_append] at ht
      injection ht with ht _
      exact absurd ht.symm (hne _ h2)
  | cons a as ih =>
    cases bs with
    | nil =>
      obtain ⟨t, ts, h1, h2⟩ := hfirst a as (ha a List.mem_cons_self) (stop :: r)
      rw [h1, List.map_nil, joinToks, List.nil_append] at ht
      injection ht with ht _
      exact absurd ht (hne _ h2)
    | cons b bs =>
      have pa := ha a List.mem_cons_self
      have pb := hb b List.mem_cons_self
      cases as with
      | nil =>
        cases bs with
        | nil =>
          obtain ⟨rfl, h⟩ := hi a b pa pb _ _ (hnt r) (hnt r') (by simpa [joinToks] using ht)
          injection h with _ h
          exact ⟨rfl, h⟩
        | cons b' bs =>
          obtain ⟨_, h⟩ := hi a b pa pb (stop :: r) (.comma :: (joinToks ((b' :: bs).map g) ++ stop :: r')) (hnt r) (nt_comma _) (by simpa [joinToks] using ht)
          injection h with h _
          rcases hstop with rfl | rfl <;> cases h
      | cons a' as =>
        cases bs with
        | nil =>
          obtain ⟨_, h⟩ := hi a b pa pb (.comma :: (joinToks ((a' :: as).map g) ++ stop :: r)) (stop :: r') (nt_comma _) (hnt r') (by simpa [joinToks] using ht)
          injection h with h _
          rcases hstop with rfl | rfl <;> cases h
        | cons b' bs =>
          obtain ⟨rfl, h⟩ := hi a b pa pb (.comma :: (joinToks ((a' :: as).map g) ++ stop :: r)) (.comma :: (joinToks ((b' :: bs).map g) ++ stop :: r'))
            (nt_comma _) (nt_comma _) (by simpa [joinToks] using ht)
          injection h with _ h
          obtain ⟨h1, h2⟩ := ih (fun x hx => ha x (List.mem_cons_of_mem _ hx)) (fun x hx => hb x (List.mem_cons_of_mem _ hx)) h
          exact ⟨by rw [h1], h2⟩

theorem case_inj : Inj NiceCase caseToks := by
  intro a b ha hb r r' hr hr' ht
  simp only [caseToks, List.append_assoc, List.cons_append, List.nil_append] at ht
  obtain ⟨h1, h2⟩ := leaf_inj ha.2 hb.2 (nt_if _) (nt_if _) ht
  simp only [List.cons.injEq, true_and] at h2
  obtain ⟨h3, h4⟩ := join_inj (P := Nice) (fun _ _ h h' _ _ k k' t => leaf_inj h h' k k' t) (fun _ h => leaf_first h) (Or.inl rfl) ha.1 hb.1 h2
  cases a; cases b
  simp only at h1 h3
  subst h1 h3
  exact ⟨rfl, h4⟩

theorem case_first {c : Case} (h : NiceCase c) : ∃ t ts, caseToks c = t :: ts ∧ Start t := by
  obtain ⟨t, ts, h1, h2⟩ := leaf_first h.2
  exact ⟨t, _, by rw [caseToks, h1, List.cons_append], h2⟩

theorem leaf_not_cond {l : Leaf} (h : Nice l) {r r' : List Tok} : leafToks l ++ r ≠ .cmp .lt :: .name (['C', 'o', 'n', 'd', 'V', 'a', 'l'] : Text) :: r' := by
  intro ht
  cases l with
  | hole n => exact absurd h id
  | expr e =>
    obtain ⟨t, ts, h1, _, h2⟩ := toks_first h.1
    rw [leafToks, h1, List.cons_append] at ht
    injection ht with ht _
    exact absurd ht (h2 _)
  | red op e it v =>
    simp only [leafToks, List.cons_append, List.cons.injEq, true_and, Tok.name.injEq] at ht
    exact absurd ht.1 (by decide +kernel)

theorem cell_inj : Inj NiceCell cellToks := by
  intro a b ha hb r r' hr hr' ht
  cases a with
  | leaf l =>
    cases b with
    | leaf l' => obtain ⟨rfl, h⟩ := leaf_inj ha hb hr hr' ht; exact ⟨rfl, h⟩
    | cond cs => exact absurd ht (leaf_not_cond ha)
  | cond cs =>
    cases b with
    | leaf l => exact absurd ht.symm (leaf_not_cond hb)
    | cond cs' =>
      simp only [cellToks, List.cons_append, List.append_assoc, List.nil_append, List.cons.injEq, true_and] at ht
      obtain ⟨rfl, h⟩ := join_inj case_inj (fun _ h => case_first h) (Or.inl rfl) ha hb ht
      injection h with _ h
      exact ⟨rfl, h⟩

theorem item_inj : Inj (fun p : Text × Cell => Name p.1 ∧ NiceCell p.2) itemToks := by
  intro a b ha hb r r' hr hr' ht
  simp only [itemToks, List.cons_append, List.cons.injEq, true_and, Tok.name.injEq] at ht
  obtain ⟨h1, h2⟩ := cell_inj _ _ ha.2 hb.2 _ _ hr hr' ht.2
  exact ⟨Prod.ext ht.1 h1, h2⟩

theorem cell_first {c : Cell} (h : NiceCell c) : ∃ t ts, cellToks c = t :: ts ∧ Start t := by
  cases c with
  | leaf l => exact leaf_first h
  | cond cs => exact ⟨_, _, rfl, nofun, nofun, nofun⟩

theorem value_inj {a b : Value} (ha : NiceValue a) (hb : NiceValue b) (ht : valueToks a = valueToks b) : a = b := by
  cases a with
  | cell c =>
    cases b with
    | cell c' => rw [(cell_inj c c' ha hb [] [] nt_nil nt_nil (by rw [List.append_nil, List.append_nil]; exact ht)).1]
    | obj d =>
      obtain ⟨t, ts, h1, h2⟩ := cell_first ha
      rw [valueToks, h1, valueToks] at ht
      injection ht with ht _
      exact absurd ht h2.2.2
  | obj d =>
    cases b with
    | cell c =>
      obtain ⟨t, ts, h1, h2⟩ := cell_first hb
      rw [valueToks, valueToks, h1] at ht
      injection ht with ht _
      exact absurd ht.symm h2.2.2
    | obj d' =>
      simp only [valueToks, List.cons.injEq, true_and] at ht
      obtain ⟨rfl, _⟩ := join_inj item_inj (fun _ _ => ⟨_, _, rfl, nofun, nofun, nofun⟩) (Or.inr rfl) ha hb ht
      rfl

theorem dump_nice {a b : Value} (ha : NiceValue a) (hb : NiceValue b) (h : dump (some a) = dump (some b)) : a = b :=
  value_inj ha hb (lex_det (lex_value ha) (h ▸ lex_value hb))

/-! ### Arguments of functions -/

/-- An argument, written as a call. -/
def code : Leaf → Leaf
  | .hole n => .expr (.call (.name (['H', 'o', 'l', 'e'] : Text)) [.name n])
  | l => l

theorem dump_code (l : Leaf) : dumpLeaf (code l) = dumpLeaf l := by
  cases l <;> rfl

theorem source_hole {n : Text} (h : Name n) : Source (.call (.name (['H', 'o', 'l', 'e'] : Text)) [.name n]) := by
  refine ⟨.call (.name name_hole) (fun h => nomatch h) ?_, by simp [Unsigned, signs, signsList]⟩
  intro e he
  simp only [List.mem_cons, List.not_mem_nil, or_false] at he
  subst he
  exact .name h

theorem nice_code {l : Leaf} (h : ProperLeaf l) : Nice (code l) := by
  cases l with
  | expr e => exact h.1
  | hole n => exact source_hole h
  | red op e it v => exact h

theorem code_inj {a b : Leaf} (ha : ProperLeaf a) (hb : ProperLeaf b) (h : code a = code b) : a = b := by
  cases a with
  | expr e =>
    cases b with
    | hole n => injection h with h; exact absurd h (ha.2 n)
    | expr e' => exact h
    | red op e' it v => cases h
  | hole n =>
    cases b with
    | hole m => injection h with h; injection h with _ h; injection h with h _; injection h with h; rw [h]
    | expr e => injection h with h; exact absurd h.symm (hb.2 n)
    | red op e' it v => cases h
  | red op e it v =>
    cases b with
    | hole n => cases h
    | expr e' => cases h
    | red op' e' it' v' => exact h

def codeCase (c : Case) : Case := ⟨c.conds.map code, code c.val⟩

def codeCell : Cell → Cell
  | .leaf l => .leaf (code l)
  | .cond cs => .cond (cs.map codeCase)

def codeValue : Value → Value
  | .cell c => .cell (codeCell c)
  | .obj d => .obj (d.map fun p => (p.1, codeCell p.2))

theorem map_code_inj {α β : Type} {f : α → β} {P : α → Prop} (hf : ∀ a b, P a → P b → f a = f b → a = b) :
    ∀ {as bs : List α}, (∀ a ∈ as, P a) → (∀ b ∈ bs, P b) → as.map f = bs.map f → as = bs
  | [], [], _, _, _ => rfl
  | [], b :: bs, _, _, h => by cases h
  | a :: as, [], _, _, h => by cases h
  | a :: as, b :: bs, ha, hb, h => by
    simp only [List.map_cons, List.cons.injEq] at h
    rw [hf a b (ha a List.mem_cons_self) (hb b List.mem_cons_self) h.1,
      map_code_inj hf (fun x hx => ha x (List.mem_cons_of_mem _ hx)) (fun x hx => hb x (List.mem_cons_of_mem _ hx)) h.2]

theorem dump_codeCase (c : Case) : dumpCase (codeCase c) = dumpCase c := by
  have : (dumpLeaf ∘ code) = dumpLeaf := funext dump_code
  simp [dumpCase, codeCase, dump_code, List.map_map, this]

theorem dump_codeCell (c : Cell) : dumpCell (codeCell c) = dumpCell c := by
  have : (dumpCase ∘ codeCase) = dumpCase := funext dump_codeCase
  cases c with
  | leaf l => exact dump_code l
  | cond cs => simp [dumpCell, codeCell, List.map_map, this]

theorem dump_codeValue (v : Value) : dump (some (codeValue v)) = dump (some v) := by
  cases v with
  | cell c => exact dump_codeCell c
  | obj d =>
    have : (dumpItem ∘ fun p : Text × Cell => (p.1, codeCell p.2)) = dumpItem := funext fun p => by simp [dumpItem, dump_codeCell]
    simp [dump, codeValue, List.map_map, this]

theorem codeCase_inj {a b : Case} (ha : ProperCase a) (hb : ProperCase b) (h : codeCase a = codeCase b) : a = b := by
  cases a; cases b
  simp only [codeCase, Case.mk.injEq] at h ⊢
  exact ⟨map_code_inj (fun _ _ h h' e => code_inj h h' e) ha.1 hb.1 h.1, code_inj ha.2 hb.2 h.2⟩

theorem codeCell_inj {a b : Cell} (ha : ProperCell a) (hb : ProperCell b) (h : codeCell a = codeCell b) : a = b := by
  cases a with
  | leaf l =>
    cases b with
    | leaf l' => injection h with h; rw [code_inj ha hb h]
    | cond cs => cases h
  | cond cs =>
    cases b with
    | leaf l => cases h
    | cond cs' => injection h with h; rw [map_code_inj (fun _ _ h h' e => codeCase_inj h h' e) ha hb h]

theorem codeValue_inj {a b : Value} (ha : Proper a) (hb : Proper b) (h : codeValue a = codeValue b) : a = b := by
  cases a with
  | cell c =>
    cases b with
    | cell c' => injection h with h; rw [codeCell_inj ha hb h]
    | obj d => cases h
  | obj d =>
    cases b with
    | cell c => cases h
    | obj d' =>
      injection h with h
      rw [map_code_inj (P := fun p : Text × Cell => Name p.1 ∧ ProperCell p.2) ?_ ha hb h]
      intro p q hp hq hpq
      simp only [Prod.mk.injEq] at hpq
      exact Prod.ext hpq.1 (codeCell_inj hp.2 hq.2 hpq.2)

theorem nice_codeCase {c : Case} (h : ProperCase c) : NiceCase (codeCase c) := by
  refine ⟨fun l hl => ?_, nice_code h.2⟩
  obtain ⟨l', h1, rfl⟩ := List.mem_map.1 hl
  exact nice_code (h.1 l' h1)

theorem nice_codeCell {c : Cell} (h : ProperCell c) : NiceCell (codeCell c) := by
  cases c with
  | leaf l => exact nice_code h
  | cond cs =>
    intro c hc
    obtain ⟨c', h1, rfl⟩ := List.mem_map.1 hc
    exact nice_codeCase (h c' h1)

theorem nice_codeValue {v : Value} (h : Proper v) : NiceValue (codeValue v) := by
  cases v with
  | cell c => exact nice_codeCell h
  | obj d =>
    intro p hp
    obtain ⟨p', h1, rfl⟩ := List.mem_map.1 hp
    exact ⟨(h p' h1).1, nice_codeCell (h p' h1).2⟩

theorem dump_inj {a b : Value} (ha : Proper a) (hb : Proper b) (h : dump (some a) = dump (some b)) : a = b := by
  rw [← dump_codeValue a, ← dump_codeValue b] at h
  exact codeValue_inj ha hb (dump_nice (nice_codeValue ha) (nice_codeValue hb) h)

theorem dumpLeaf_inj {a b : Leaf} (ha : ProperLeaf a) (hb : ProperLeaf b) (h : dumpLeaf a = dumpLeaf b) : a = b := by
  have := dump_inj (a := .cell (.leaf a)) (b := .cell (.leaf b)) ha hb h
  injection this with this
  injection this

/-! ### Cases -/

theorem allEq_iff {as bs : List Leaf} (ha : ∀ l ∈ as, ProperLeaf l) (hb : ∀ l ∈ bs, ProperLeaf l) (hlen : as.length = bs.length) : allEq as bs = true ↔ as = bs := by
  induction as generalizing bs with
  | nil => cases bs with
    | nil => simp [allEq]
    | cons b bs => cases hlen
  | cons a as ih => cases bs with
    | nil => cases hlen
    | cons b bs =>
      rw [allEq, Bool.and_eq_true, ih (fun x hx => ha x (List.mem_cons_of_mem _ hx)) (fun x hx => hb x (List.mem_cons_of_mem _ hx)) (by simpa using hlen)]
      simp only [leafEq, beq_iff_eq, List.cons.injEq]
      refine and_congr_left fun _ => ⟨fun h => dumpLeaf_inj (ha a List.mem_cons_self) (hb b List.mem_cons_self) h, fun h => by rw [h]⟩

theorem caseEq_iff {a b : Case} (ha : ProperCase a) (hb : ProperCase b) : caseEq a b = true ↔ a = b := by
  cases a; cases b
  simp only [caseEq, Bool.and_eq_true, beq_iff_eq, Case.mk.injEq, leafEq]
  constructor
  · rintro ⟨h1, h2, h3⟩
    exact ⟨(allEq_iff ha.1 hb.1 h1).1 h2, dumpLeaf_inj ha.2 hb.2 h3⟩
  · rintro ⟨rfl, rfl⟩
    exact ⟨rfl, (allEq_iff ha.1 hb.1 rfl).2 rfl, rfl⟩

theorem eraseP_mem {α : Type} {p : α → Bool} {o : α} : ∀ {cs : List α}, (∀ c ∈ cs, p c = true → c = o) → ∀ c : α, c ∈ cs → c ∈ cs.eraseP p ∨ c = o
  | [], _, c, hc => absurd hc (by simp)
  | x :: xs, h, c, hc => by
    by_cases hx : p x = true
    · rw [List.eraseP_cons_of_pos hx]
      rcases List.mem_cons.1 hc with rfl | hc
      · exact Or.inr (h c List.mem_cons_self hx)
      · exact Or.inl hc
    · rw [List.eraseP_cons_of_neg hx]
      rcases List.mem_cons.1 hc with rfl | hc
      · exact Or.inl List.mem_cons_self
      · rcases eraseP_mem (fun y hy => h y (List.mem_cons_of_mem _ hy)) c hc with h' | h'
        · exact Or.inl (List.mem_cons_of_mem _ h')
        · exact Or.inr h'

theorem eraseCases_sub {orig cs : List Case} {c : Case} (h : c ∈ eraseCases orig cs) : c ∈ cs := by
  induction orig generalizing cs with
  | nil => exact h
  | cons o os ih => exact List.mem_of_mem_eraseP (ih h)

theorem eraseCases_mem {orig cs : List Case} (ho : ∀ c ∈ orig, ProperCase c) (hc : ∀ c ∈ cs, ProperCase c) {c : Case} (h : c ∈ cs) : c ∈ eraseCases orig cs ∨ c ∈ orig := by
  induction orig generalizing cs with
  | nil => exact Or.inl h
  | cons o os ih =>
    rcases eraseP_mem (p := fun c => caseEq o c) (o := o) (fun x hx he => ((caseEq_iff (ho o List.mem_cons_self) (hc x hx)).1 he).symm) c h with h' | rfl
    · rcases ih (fun x hx => ho x (List.mem_cons_of_mem _ hx)) (fun x hx => hc x (List.mem_of_mem_eraseP hx)) h' with h | h
      · exact Or.inl h
      · exact Or.inr (List.mem_cons_of_mem _ h)
    · exact Or.inr List.mem_cons_self

theorem has_iff {holds : Leaf → Prop} {c : Option Cell} {v : Leaf} : Has holds c v ↔ ∃ k ∈ asCases c, k.val = v ∧ ∀ g ∈ k.conds, holds g := by
  match c with
  | none => simp [Has, asCases]
  | some (.leaf l) => simp [Has, asCases, eq_comm]
  | some (.cond cs) => simp [Has, asCases]

theorem proper_asCases {c : Option Cell} (h : ∀ x, c = some x → ProperCell x) : ∀ k ∈ asCases c, ProperCase k := by
  match c, h with
  | none, _ => intro k hk; cases hk
  | some (.leaf l), h =>
    intro k hk
    simp only [asCases, List.mem_cons, List.not_mem_nil, or_false] at hk
    subst hk
    exact ⟨fun _ hl => (nomatch hl), h _ rfl⟩
  | some (.cond cs), h => exact h _ rfl

theorem mergeIfVal_has {holds : Leaf → Prop} {test : Expr} (hnot : holds (.expr (.un .not test)) ↔ ¬ holds (.expr test)) {t f o : Option Cell}
    (ht : ∀ x, t = some x → ProperCell x) (hf : ∀ x, f = some x → ProperCell x) (ho : ∀ x, o = some x → ProperCell x) {c : Cell} (hc : mergeIfVal test t f o = .ok c)
    (v : Leaf) : Has holds (some c) v ↔ (holds (.expr test) ∧ Has holds t v) ∨ (¬ holds (.expr test) ∧ Has holds f v) ∨ Has holds o v := by
  unfold mergeIfVal at hc
  simp only at hc
  split at hc
  · cases hc
  injection hc with hc
  subst hc
  rw [has_iff, has_iff, has_iff, has_iff]
  have key : ∀ (x : Option Cell) (hx : ∀ y, x = some y → ProperCell y) (k : Case), k ∈ asCases x → k ∈ eraseCases (asCases o) (asCases x) ∨ k ∈ asCases o :=
    fun x hx k hk => eraseCases_mem (proper_asCases ho) (proper_asCases hx) hk
  constructor
  · rintro ⟨k, hk, rfl, hg⟩
    simp only [asCases, List.mem_append, addCond, List.mem_map] at hk
    rcases hk with (⟨k', h1, rfl⟩ | ⟨k', h1, rfl⟩) | hk
    · refine Or.inl ⟨hg _ (by simp), k', eraseCases_sub h1, rfl, fun g h => hg g (by simp [h])⟩
    · refine Or.inr (Or.inl ⟨hnot.1 (hg _ (by simp)), k', eraseCases_sub h1, rfl, fun g h => hg g (by simp [h])⟩)
    · exact Or.inr (Or.inr ⟨k, hk, rfl, hg⟩)
  · have fin : ∀ k ∈ asCases o, (∀ g ∈ k.conds, holds g) → ∃ k' ∈ asCases (some (Cell.cond (addCond test (eraseCases (asCases o) (asCases t)) ++
        addCond (.un .not test) (eraseCases (asCases o) (asCases f)) ++ asCases o))), k'.val = k.val ∧ ∀ g ∈ k'.conds, holds g :=
      fun k hk hg => ⟨k, List.mem_append_right _ hk, rfl, hg⟩
    rintro (⟨h1, k, hk, rfl, hg⟩ | ⟨h1, k, hk, rfl, hg⟩ | ⟨k, hk, rfl, hg⟩)
    · rcases key t ht k hk with h | h
      · refine ⟨{ k with conds := k.conds ++ [.expr test] }, ?_, rfl, ?_⟩
        · simp only [asCases, List.mem_append, addCond, List.mem_map]
          exact Or.inl (Or.inl ⟨k, h, rfl⟩)
        · intro g h'
          rcases List.mem_append.1 h' with h' | h'
          · exact hg g h'
          · rw [List.mem_singleton.1 h']; exact h1
      · exact fin k h hg
    · rcases key f hf k hk with h | h
      · refine ⟨{ k with conds := k.conds ++ [.expr (.un .not test)] }, ?_, rfl, ?_⟩
        · simp only [asCases, List.mem_append, addCond, List.mem_map]
          exact Or.inl (Or.inr ⟨k, h, rfl⟩)
        · intro g h'
          rcases List.mem_append.1 h' with h' | h'
          · exact hg g h'
          · rw [List.mem_singleton.1 h']; exact hnot.2 h1
      · exact fin k h hg
    · exact fin k hk hg

end Verif.Spec.IrText
