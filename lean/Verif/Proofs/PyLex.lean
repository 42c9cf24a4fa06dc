import Verif.Proofs.PyText
import Mathlib.Data.List.Basic

/-!
The tokens of the text of an expression.
-/

set_option autoImplicit false

namespace Verif.Spec.PyText

open Verif.Unparse

/-! ### Lexing step by step -/

theorem lexWith_mono {f : Nat} {cs : Text} {ts : List Tok} (h : lexWith f cs = some ts) : lexWith (f + 1) cs = some ts := by
  induction f generalizing cs ts with
  | zero =>
    cases cs with
    | nil => simpa [lexWith] using h
    | cons c cs => simp [lexWith] at h
  | succ f ih =>
    cases cs with
    | nil => simpa [lexWith] using h
    | cons c cs =>
      rw [lexWith] at h ⊢
      by_cases hc : c = ' '
      · simp only [hc, if_true] at h ⊢
        exact ih h
      · simp only [hc, if_false] at h ⊢
        cases hs : scan (c :: cs) with
        | none => rw [hs] at h; cases h
        | some p =>
          rw [hs] at h
          simp only [Option.map_eq_some_iff] at h ⊢
          obtain ⟨ts', h1, h2⟩ := h
          exact ⟨ts', ih h1, h2⟩

theorem lexWith_le {f g : Nat} (hfg : f ≤ g) {cs : Text} {ts : List Tok} (h : lexWith f cs = some ts) : lexWith g cs = some ts := by
  induction hfg with
  | refl => exact h
  | step _ ih => exact lexWith_mono ih

theorem lex_det {cs : Text} {ts ts' : List Tok} (h : Lex cs ts) (h' : Lex cs ts') : ts = ts' := by
  obtain ⟨f, hf⟩ := h
  obtain ⟨g, hg⟩ := h'
  have h1 := lexWith_le (Nat.le_max_left f g) hf
  have h2 := lexWith_le (Nat.le_max_right f g) hg
  rw [h1] at h2
  exact Option.some.inj h2

theorem lex_nil : Lex [] [] := ⟨0, rfl⟩

theorem lex_space {cs : Text} {ts : List Tok} (h : Lex cs ts) : Lex (' ' :: cs) ts := by
  obtain ⟨f, hf⟩ := h
  exact ⟨f + 1, by rw [lexWith, if_pos rfl]; exact hf⟩

theorem lex_tok {c : Char} {cs rest : Text} {t : Tok} {ts : List Tok} (hc : c ≠ ' ') (hs : scan (c :: cs) = some (t, rest)) (h : Lex rest ts) :
    Lex (c :: cs) (t :: ts) := by
  obtain ⟨f, hf⟩ := h
  refine ⟨f + 1, ?_⟩
  rw [lexWith, if_neg hc, hs]
  simp [hf]

/-! ### Single tokens -/

theorem scan_op {c : Char} {cs : Text} (h1 : identStart c = false) (h2 : c.isDigit = false) (h3 : c ≠ '\'') : scan (c :: cs) = scanOp (c :: cs) := by
  simp [scan, h1, h2, h3]

theorem lex_lpar {cs : Text} {ts : List Tok} (h : Lex cs ts) : Lex ('(' :: cs) (.lpar :: ts) :=
  lex_tok (by decide) (by rw [scan_op (by decide) (by decide) (by decide)]; rfl) h
theorem lex_rpar {cs : Text} {ts : List Tok} (h : Lex cs ts) : Lex (')' :: cs) (.rpar :: ts) :=
  lex_tok (by decide) (by rw [scan_op (by decide) (by decide) (by decide)]; rfl) h
theorem lex_lbrack {cs : Text} {ts : List Tok} (h : Lex cs ts) : Lex ('[' :: cs) (.lbrack :: ts) :=
  lex_tok (by decide) (by rw [scan_op (by decide) (by decide) (by decide)]; rfl) h
theorem lex_rbrack {cs : Text} {ts : List Tok} (h : Lex cs ts) : Lex (']' :: cs) (.rbrack :: ts) :=
  lex_tok (by decide) (by rw [scan_op (by decide) (by decide) (by decide)]; rfl) h
theorem lex_comma {cs : Text} {ts : List Tok} (h : Lex cs ts) : Lex (',' :: cs) (.comma :: ts) :=
  lex_tok (by decide) (by rw [scan_op (by decide) (by decide) (by decide)]; rfl) h
theorem lex_dot {cs : Text} {ts : List Tok} (h : Lex cs ts) : Lex ('.' :: cs) (.dot :: ts) :=
  lex_tok (by decide) (by rw [scan_op (by decide) (by decide) (by decide)]; rfl) h
theorem lex_minus {cs : Text} {ts : List Tok} (h : Lex cs ts) : Lex ('-' :: cs) (.op .sub :: ts) :=
  lex_tok (by decide) (by rw [scan_op (by decide) (by decide) (by decide)]; rfl) h

theorem lex_pow {cs : Text} {ts : List Tok} (h : Lex cs ts) : Lex ('*' :: '*' :: ' ' :: cs) (.pow :: ts) :=
  lex_tok (by decide) (by rw [scan_op (by decide) (by decide) (by decide)]; rfl) (lex_space h)

theorem lex_bin {op : BinOp} {cs : Text} {ts : List Tok} (h : Lex cs ts) : Lex (binText op ++ ' ' :: cs) (.op op :: ts) := by
  cases op <;> exact lex_tok (by decide) (by rw [scan_op (by decide) (by decide) (by decide)]; rfl) (lex_space h)

theorem lex_cmp {op : CmpOp} {cs : Text} {ts : List Tok} (h : Lex cs ts) : Lex (cmpText op ++ ' ' :: cs) (.cmp op :: ts) := by
  cases op <;> exact lex_tok (by decide) (by rw [scan_op (by decide) (by decide) (by decide)]; rfl) (lex_space h)

/-! ### Words -/

/-- The text does not go on with a character of this kind. -/
def Ends (p : Char → Bool) (cs : Text) : Prop := ∀ c, cs.head? = some c → p c = false

theorem takeWhile_ends {p : Char → Bool} {a rest : Text} (ha : ∀ c ∈ a, p c = true) (hr : Ends p rest) : (a ++ rest).takeWhile p = a := by
  induction a with
  | nil =>
    cases rest with
    | nil => rfl
    | cons c cs => simp [List.takeWhile_cons, hr c rfl]
  | cons x a ih =>
    rw [List.cons_append, List.takeWhile_cons, if_pos (ha x List.mem_cons_self), ih (fun c hc => ha c (List.mem_cons_of_mem _ hc))]

theorem dropWhile_ends {p : Char → Bool} {a rest : Text} (ha : ∀ c ∈ a, p c = true) (hr : Ends p rest) : (a ++ rest).dropWhile p = rest := by
  induction a with
  | nil =>
    cases rest with
    | nil => rfl
    | cons c cs => simp [List.dropWhile_cons, hr c rfl]
  | cons x a ih =>
    rw [List.cons_append, List.dropWhile_cons, if_pos (ha x List.mem_cons_self), ih (fun c hc => ha c (List.mem_cons_of_mem _ hc))]

theorem start_char {c : Char} (h : identStart c = true) : identChar c = true := by
  unfold identStart at h
  unfold identChar Char.isAlphanum
  simp only [Bool.or_eq_true] at h
  rcases h with h | h <;> simp [h]

theorem digit_char {c : Char} (h : c.isDigit = true) : identChar c = true := by
  unfold identChar Char.isAlphanum
  simp [h]

theorem ends_digit {cs : Text} (h : Ends identChar cs) : Ends Char.isDigit cs := by
  intro c hc
  cases hd : c.isDigit with
  | false => rfl
  | true => have := h c hc; rw [digit_char hd] at this; cases this

theorem start_not_space {c : Char} (h : identStart c = true) : c ≠ ' ' := by
  rintro rfl; exact absurd h (by decide)

theorem lex_word {c : Char} {s rest : Text} {ts : List Tok} (hc : identStart c = true) (hs : ∀ x ∈ s, identChar x = true) (hr : Ends identChar rest) (h : Lex rest ts) :
    Lex ((c :: s) ++ rest) (wordTok (c :: s) :: ts) := by
  have ha : ∀ x ∈ c :: s, identChar x = true := by
    intro x hx
    rcases List.mem_cons.1 hx with rfl | hx
    · exact start_char hc
    · exact hs x hx
  rw [List.cons_append]
  refine lex_tok (start_not_space hc) ?_ h
  rw [scan, if_pos hc]
  have h1 := takeWhile_ends ha hr
  have h2 := dropWhile_ends ha hr
  rw [List.cons_append] at h1 h2
  rw [h1, h2]

theorem lex_name {s rest : Text} {ts : List Tok} (hs : Name s) (hr : Ends identChar rest) (h : Lex rest ts) : Lex (s ++ rest) (.name s :: ts) := by
  obtain ⟨⟨c, cs, rfl, h1, h2⟩, hk⟩ := hs
  have := lex_word h1 h2 hr h
  rwa [wordTok, if_neg hk] at this

theorem ends_cons {p : Char → Bool} {c : Char} {cs : Text} (h : p c = false) : Ends p (c :: cs) := by
  intro x hx
  injection hx with hx
  exact hx ▸ h

theorem ends_space (cs : Text) : Ends identChar (' ' :: cs) := ends_cons (by decide)

theorem kw_mem : (['n', 'o', 't'] : Text) ∈ keywords ∧ (['a', 'n', 'd'] : Text) ∈ keywords ∧ (['o', 'r'] : Text) ∈ keywords ∧ (['i', 'f'] : Text) ∈ keywords ∧
    (['e', 'l', 's', 'e'] : Text) ∈ keywords := by
  decide +kernel

theorem lex_kw {c : Char} {s cs : Text} {ts : List Tok} (hk : (c :: s) ∈ keywords) (hc : identStart c = true) (hs : ∀ x ∈ s, identChar x = true) (h : Lex cs ts) :
    Lex ((c :: s) ++ ' ' :: cs) (.kw (c :: s) :: ts) := by
  have := lex_word hc hs (ends_space cs) (lex_space h)
  rwa [wordTok, if_pos hk] at this

theorem lex_not {cs : Text} {ts : List Tok} (h : Lex cs ts) : Lex (['n', 'o', 't'] ++ ' ' :: cs) (kwNot :: ts) :=
  lex_kw kw_mem.1 (by decide) (by decide) h
theorem lex_and {cs : Text} {ts : List Tok} (h : Lex cs ts) : Lex (['a', 'n', 'd'] ++ ' ' :: cs) (kwOf .and :: ts) :=
  lex_kw kw_mem.2.1 (by decide) (by decide) h
theorem lex_or {cs : Text} {ts : List Tok} (h : Lex cs ts) : Lex (['o', 'r'] ++ ' ' :: cs) (kwOf .or :: ts) :=
  lex_kw kw_mem.2.2.1 (by decide) (by decide) h
theorem lex_if {cs : Text} {ts : List Tok} (h : Lex cs ts) : Lex (['i', 'f'] ++ ' ' :: cs) (kwIf :: ts) :=
  lex_kw kw_mem.2.2.2.1 (by decide) (by decide) h
theorem lex_else {cs : Text} {ts : List Tok} (h : Lex cs ts) : Lex (['e', 'l', 's', 'e'] ++ ' ' :: cs) (kwElse :: ts) :=
  lex_kw kw_mem.2.2.2.2 (by decide) (by decide) h

theorem lex_un {op : UnOp} {cs : Text} {ts : List Tok} (h : Lex cs ts) : Lex (unText op ++ ' ' :: cs) (unTok op :: ts) := by
  cases op with
  | not => exact lex_not h
  | _ => exact lex_tok (by decide) (by rw [scan_op (by decide) (by decide) (by decide)]; rfl) (lex_space h)

theorem lex_boolop {op : BoolOp} {cs : Text} {ts : List Tok} (h : Lex cs ts) : Lex (boolText op ++ ' ' :: cs) (kwOf op :: ts) := by
  cases op with
  | and => exact lex_and h
  | or => exact lex_or h

/-! ### Strings and numbers -/

theorem lex_str {s rest : Text} {ts : List Tok} (hs : Plain s) (h : Lex rest ts) : Lex ('\'' :: (s ++ '\'' :: rest)) (.str s :: ts) := by
  refine lex_tok (by decide) ?_ h
  have ha : ∀ c ∈ s, (c != '\'') = true := fun c hc => by simp [(hs c hc).1]
  have he : Ends (fun c => c != '\'') ('\'' :: rest) := ends_cons (by decide)
  have h1 := takeWhile_ends ha he
  have h2 := dropWhile_ends ha he
  have h3 : '\\' ∉ s := fun hm => (hs _ hm).2 rfl
  rw [scan, if_neg (by decide), if_neg (by decide), if_pos rfl, scanStr, h1, h2]
  simp [h3]

theorem scanExp_none {rest : Text} (hr : Ends identChar rest) : scanExp rest = ([], rest) := by
  match rest, hr with
  | [], _ => rfl
  | c :: cs, hr =>
    have hc : c ≠ 'e' := by
      rintro rfl
      exact absurd (hr 'e' rfl) (by decide)
    unfold scanExp
    split
    · rename_i h; injection h with h; exact absurd h hc
    · rename_i h; injection h with h; exact absurd h hc
    · rename_i h; injection h with h; exact absurd h hc
    · rfl

theorem scanExp_some {sg ds rest : Text} (hsg : sg = [] ∨ sg = ['+'] ∨ sg = ['-']) (hne : ds ≠ []) (hd : ∀ c ∈ ds, c.isDigit = true) (hr : Ends identChar rest) :
    scanExp ('e' :: (sg ++ (ds ++ rest))) = ('e' :: (sg ++ ds), rest) := by
  have h1 := takeWhile_ends hd (ends_digit hr)
  have h2 := dropWhile_ends hd (ends_digit hr)
  rcases hsg with rfl | rfl | rfl
  · cases ds with
    | nil => exact absurd rfl hne
    | cons d ds =>
      have hd1 := hd d List.mem_cons_self
      have n1 : d ≠ '+' := by rintro rfl; exact absurd hd1 (by decide)
      have n2 : d ≠ '-' := by rintro rfl; exact absurd hd1 (by decide)
      unfold scanExp
      split
      · rename_i h; injection h with _ h; injection h with h; exact absurd h n1
      · rename_i h; injection h with _ h; injection h with h; exact absurd h n2
      · rename_i h
        injection h with _ h
        simp only [List.nil_append] at h
        subst h
        rw [h1, h2, if_neg hne]
        rfl
      · rename_i h; exact absurd rfl (h _)
  · simp only [List.cons_append, List.nil_append, scanExp]
    rw [h1, h2, if_neg hne]
  · simp only [List.cons_append, List.nil_append, scanExp]
    rw [h1, h2, if_neg hne]

theorem scanFrac_none {rest : Text} (hr : rest.head? ≠ some '.') : scanFrac rest = ([], rest) := by
  unfold scanFrac
  split
  · exact absurd rfl hr
  · rfl

theorem scanNum_number {s rest : Text} (hs : Number s) (hr : Ends identChar rest) (hd : rest.head? ≠ some '.') : scanNum (s ++ rest) = (s, rest) := by
  obtain ⟨i, f, x, rfl, hne, hi, hf, hx⟩ := hs
  -- the exponent
  have hexp : scanExp (x ++ rest) = (x, rest) := by
    rcases hx with rfl | ⟨sg, ds, rfl, hsg, hne, hds⟩
    · exact scanExp_none hr
    · have := scanExp_some hsg hne hds hr
      simpa using this
  have hxe : Ends Char.isDigit (x ++ rest) ∧ (x ++ rest).head? ≠ some '.' := by
    rcases hx with rfl | ⟨sg, ds, rfl, _, _, _⟩
    · exact ⟨ends_digit hr, hd⟩
    · exact ⟨ends_cons (by decide), by simp⟩
  have hfrac : scanFrac (f ++ (x ++ rest)) = (f, x ++ rest) := by
    rcases hf with rfl | ⟨ds, rfl, hds⟩
    · exact scanFrac_none hxe.2
    · rw [List.cons_append, scanFrac, takeWhile_ends hds hxe.1, dropWhile_ends hds hxe.1]
  have hfe : Ends Char.isDigit (f ++ (x ++ rest)) := by
    rcases hf with rfl | ⟨ds, rfl, hds⟩
    · exact hxe.1
    · exact ends_cons (by decide)
  have e : i ++ (f ++ x) ++ rest = i ++ (f ++ (x ++ rest)) := by simp
  unfold scanNum
  simp only [e, takeWhile_ends hi hfe, dropWhile_ends hi hfe, hfrac, hexp]

theorem digit_not_start {c : Char} (h : c.isDigit = true) : identStart c = false := by
  have h' : 48 ≤ c.val.toNat ∧ c.val.toNat ≤ 57 := by
    unfold Char.isDigit at h
    simp only [Bool.and_eq_true, decide_eq_true_eq] at h
    exact ⟨by simpa using UInt32.le_iff_toNat_le.1 h.1, by simpa using UInt32.le_iff_toNat_le.1 h.2⟩
  cases hs : identStart c with
  | false => rfl
  | true =>
    exfalso
    unfold identStart Char.isAlpha Char.isUpper Char.isLower at hs
    simp only [Bool.or_eq_true, Bool.and_eq_true, decide_eq_true_eq, beq_iff_eq] at hs
    rcases hs with (⟨a, _⟩ | ⟨a, _⟩) | a
    · have := UInt32.le_iff_toNat_le.1 a
      simp at this
      have hv : c.toNat = c.val.toNat := rfl
      omega
    · have := UInt32.le_iff_toNat_le.1 a
      simp at this
      have hv : c.toNat = c.val.toNat := rfl
      omega
    · subst a
      exact absurd h (by decide)

theorem lex_num {s rest : Text} {ts : List Tok} (hs : Number s) (hr : Ends identChar rest) (hd : rest.head? ≠ some '.') (h : Lex rest ts) :
    Lex (s ++ rest) (.num s :: ts) := by
  have hn := scanNum_number hs hr hd
  obtain ⟨c, cs, rfl, hc⟩ : ∃ c cs, s = c :: cs ∧ c.isDigit = true := by
    obtain ⟨i, f, x, rfl, hne, hi, _, _⟩ := hs
    match i, hne, hi with
    | c :: cs, _, hi => exact ⟨c, _, rfl, hi c List.mem_cons_self⟩
  rw [List.cons_append] at hn ⊢
  refine lex_tok (by rintro rfl; exact absurd hc (by decide)) ?_ h
  rw [scan, if_neg (by rw [digit_not_start hc]; simp), if_pos hc, hn]

/-! ### Expressions -/

/-- What can follow the text of an expression. -/
structure Follows (e : Expr) (rest : Text) : Prop where
  ends : Ends identChar rest
  dot : IsNumber e → rest.head? ≠ some '.'

/-- What is proved of the text of an expression. -/
def LexGood (e : Expr) : Prop := ∀ rest ts, Follows e rest → Lex rest ts → Lex (unparse e ++ rest) (toks e ++ ts)

theorem follows_of {e : Expr} {c : Char} {cs : Text} (h : identChar c = false) (hd : c ≠ '.') : Follows e (c :: cs) :=
  ⟨ends_cons h, fun _ hh => hd (Option.some.inj hh)⟩

theorem f_space {e : Expr} {cs : Text} : Follows e (' ' :: cs) := follows_of (by decide) (by decide)
theorem f_rpar {e : Expr} {cs : Text} : Follows e (')' :: cs) := follows_of (by decide) (by decide)
theorem f_rbrack {e : Expr} {cs : Text} : Follows e (']' :: cs) := follows_of (by decide) (by decide)
theorem f_lpar {e : Expr} {cs : Text} : Follows e ('(' :: cs) := follows_of (by decide) (by decide)
theorem f_lbrack {e : Expr} {cs : Text} : Follows e ('[' :: cs) := follows_of (by decide) (by decide)
theorem f_comma {e : Expr} {cs : Text} : Follows e (',' :: cs) := follows_of (by decide) (by decide)

theorem lex_args {es : List Expr} (h : ∀ e ∈ es, LexGood e) {rest : Text} {ts : List Tok} (hl : Lex rest ts) :
    Lex (sepBy [',', ' '] es ++ ')' :: rest) (toksSep .comma es ++ .rpar :: ts) := by
  induction es with
  | nil => exact lex_rpar hl
  | cons e es ih =>
    cases es with
    | nil => exact h e List.mem_cons_self _ _ f_rpar (lex_rpar hl)
    | cons e' es =>
      have h1 := ih (fun x hx => h x (List.mem_cons_of_mem _ hx))
      have h2 := h e List.mem_cons_self _ _ f_comma (lex_comma (lex_space h1))
      simpa [sepBy, toksSep] using h2

theorem lex_bools {op : BoolOp} {es : List Expr} (h : ∀ e ∈ es, LexGood e) {rest : Text} {ts : List Tok} (hl : Lex rest ts) :
    Lex (sepBy (' ' :: (boolText op ++ [' '])) es ++ ')' :: rest) (toksSep (kwOf op) es ++ .rpar :: ts) := by
  induction es with
  | nil => exact lex_rpar hl
  | cons e es ih =>
    cases es with
    | nil => exact h e List.mem_cons_self _ _ f_rpar (lex_rpar hl)
    | cons e' es =>
      have h1 := ih (fun x hx => h x (List.mem_cons_of_mem _ hx))
      have h2 := h e List.mem_cons_self _ _ f_space (lex_space (lex_boolop (op := op) h1))
      simpa [sepBy, toksSep] using h2

theorem lex_cmps {ps : List (CmpOp × Expr)} (h : ∀ p ∈ ps, LexGood p.2) {rest : Text} {ts : List Tok} (hl : Lex rest ts) :
    Lex (cmpRest ps ++ ')' :: rest) (toksCmp ps ++ .rpar :: ts) ∧ ∀ e, Follows e (cmpRest ps ++ ')' :: rest) := by
  induction ps with
  | nil => exact ⟨lex_rpar hl, fun _ => f_rpar⟩
  | cons p ps ih =>
    obtain ⟨h1, h2⟩ := ih (fun x hx => h x (List.mem_cons_of_mem _ hx))
    have h3 := h p List.mem_cons_self _ _ (h2 _) h1
    have h4 := lex_space (lex_cmp (op := p.1) h3)
    refine ⟨by simpa [cmpRest, toksCmp] using h4, fun e => ?_⟩
    rw [cmpRest, List.cons_append]
    exact f_space

theorem lex_unparse {e : Expr} (h : WF e) : LexGood e := by
  induction h with
  | name hs => intro rest ts hf hl; exact lex_name hs hf.ends hl
  | @num neg s hs =>
    intro rest ts hf hl
    have := lex_num hs hf.ends (hf.dot trivial) hl
    cases neg with
    | false => exact this
    | true => exact lex_minus this
  | @str s hs =>
    intro rest ts _ hl
    have := lex_str hs hl
    simpa [unparse, toks] using this
  | @attr e a _ hnum ha g =>
    intro rest ts hf hl
    have h1 := lex_dot (lex_name ha hf.ends hl)
    have h2 := g _ _ ⟨ends_cons (by decide), fun hh => absurd hh hnum⟩ h1
    simpa [unparse, toks] using h2
  | @call f args _ _ _ g gs =>
    intro rest ts hf hl
    have h2 := g _ _ f_lpar (lex_lpar (lex_args gs hl))
    simpa [unparse, toks] using h2
  | @subs e i _ _ _ g gi =>
    intro rest ts hf hl
    have h2 := g _ _ f_lbrack (lex_lbrack (gi _ _ f_rbrack (lex_rbrack hl)))
    simpa [unparse, toks] using h2
  | @un op e _ g =>
    intro rest ts hf hl
    have h2 := lex_lpar (lex_un (op := op) (g _ _ f_rpar (lex_rpar hl)))
    simpa [unparse, toks] using h2
  | @bin op a b _ _ ga gb =>
    intro rest ts hf hl
    have h2 := lex_lpar (ga _ _ f_space (lex_space (lex_bin (op := op) (gb _ _ f_rpar (lex_rpar hl)))))
    simpa [unparse, toks] using h2
  | @pow a b _ _ _ ga gb =>
    intro rest ts hf hl
    have h2 := lex_lpar (ga _ _ f_space (lex_space (lex_pow (gb _ _ f_rpar (lex_rpar hl)))))
    simpa [unparse, toks] using h2
  | @bool op es _ _ gs =>
    intro rest ts hf hl
    have h2 := lex_lpar (lex_bools (op := op) gs hl)
    simpa [unparse, toks] using h2
  | @cmp a ps _ _ _ ga gs =>
    intro rest ts hf hl
    obtain ⟨h1, h3⟩ := lex_cmps gs hl
    have h2 := lex_lpar (ga _ _ (h3 _) h1)
    simpa [unparse, toks] using h2
  | @ite t b o _ _ _ gt gb go =>
    intro rest ts hf hl
    have h1 := lex_else (go _ _ f_rpar (lex_rpar hl))
    have h3 := lex_if (gt _ _ f_space (lex_space h1))
    have h2 := lex_lpar (gb _ _ f_space (lex_space h3))
    simpa [unparse, toks] using h2

theorem denotes_unparse {e : Expr} (h : WF e) : Denotes (unparse e) (signs e) := by
  refine ⟨toks e, ?_, ?_⟩
  · have := lex_unparse h [] [] ⟨fun _ hc => (nomatch hc), fun _ hc => (nomatch hc)⟩ lex_nil
    simpa using this
  · have := (good h).expr (rest := []) (Or.inl rfl)
    simpa using this

theorem denotes_det {cs : Text} {e e' : Expr} (h : Denotes cs e) (h' : Denotes cs e') : e' = e := by
  obtain ⟨ts, h1, h2⟩ := h
  obtain ⟨ts', h1', h2'⟩ := h'
  obtain rfl := lex_det h1 h1'
  have := (reads_det h2 h2').1
  injection this

end Verif.Spec.PyText
