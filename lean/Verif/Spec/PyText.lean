import Verif.Model.Unparse

/-!
How Python reads the text of an expression: lexical analysis (The Python Language Reference, section 2) and the grammar of expressions (section 10),
restricted to the expressions of `Verif.Model.Unparse`. Only the type of expressions of the model is used.
-/

set_option autoImplicit false

namespace Verif.Spec.PyText

open Verif.Unparse (Text UnOp BinOp BoolOp CmpOp Expr)

/-! ### Tokens -/

inductive Tok
  | name (s : Text)
  | kw (s : Text)
  | num (s : Text)
  | str (s : Text)
  | op (b : BinOp)
  | cmp (c : CmpOp)
  | pow
  | tilde
  | lpar
  | rpar
  | lbrack
  | rbrack
  | comma
  | dot
  | lbrace
  | rbrace
  | colon
deriving DecidableEq

def identStart (c : Char) : Bool := c.isAlpha || c == '_'
def identChar (c : Char) : Bool := c.isAlphanum || c == '_'

/-- The keywords, without `True`, `False` and `None`. -/
def keywords : List Text :=
  ["and", "as", "assert", "async", "await", "break", "class", "continue", "def", "del", "elif", "else", "except", "finally", "for", "from", "global", "if",
   "import", "in", "is", "lambda", "nonlocal", "not", "or", "pass", "raise", "return", "try", "while", "with", "yield"].map String.toList

/-- Names and keywords. -/
def wordTok (s : Text) : Tok := if s ∈ keywords then .kw s else .name s

/-- The exponent of a number, if there is one: its text and what follows. -/
def scanExp : Text → Text × Text
  | 'e' :: '+' :: cs => if (cs.takeWhile Char.isDigit) = [] then ([], 'e' :: '+' :: cs) else ('e' :: '+' :: cs.takeWhile Char.isDigit, cs.dropWhile Char.isDigit)
  | 'e' :: '-' :: cs => if (cs.takeWhile Char.isDigit) = [] then ([], 'e' :: '-' :: cs) else ('e' :: '-' :: cs.takeWhile Char.isDigit, cs.dropWhile Char.isDigit)
  | 'e' :: cs => if (cs.takeWhile Char.isDigit) = [] then ([], 'e' :: cs) else ('e' :: cs.takeWhile Char.isDigit, cs.dropWhile Char.isDigit)
  | cs => ([], cs)

/-- The fraction of a number, if there is one: its text and what follows. -/
def scanFrac : Text → Text × Text
  | '.' :: cs => ('.' :: cs.takeWhile Char.isDigit, cs.dropWhile Char.isDigit)
  | cs => ([], cs)

/-- A number at the beginning of a text that begins with a digit: its text and what follows. -/
def scanNum (cs : Text) : Text × Text :=
  let i := cs.takeWhile Char.isDigit
  let f := scanFrac (cs.dropWhile Char.isDigit)
  let e := scanExp f.2
  (i ++ (f.1 ++ e.1), e.2)

/-- Operators and delimiters, the longest first. -/
def scanOp : Text → Option (Tok × Text)
  | '*' :: '*' :: cs => some (.pow, cs)
  | '/' :: '/' :: cs => some (.op .floorDiv, cs)
  | '<' :: '<' :: cs => some (.op .lShift, cs)
  | '>' :: '>' :: cs => some (.op .rShift, cs)
  | '<' :: '=' :: cs => some (.cmp .le, cs)
  | '>' :: '=' :: cs => some (.cmp .ge, cs)
  | '=' :: '=' :: cs => some (.cmp .eq, cs)
  | '!' :: '=' :: cs => some (.cmp .ne, cs)
  | '+' :: cs => some (.op .add, cs)
  | '-' :: cs => some (.op .sub, cs)
  | '*' :: cs => some (.op .mult, cs)
  | '@' :: cs => some (.op .matMult, cs)
  | '/' :: cs => some (.op .div, cs)
  | '%' :: cs => some (.op .mod, cs)
  | '|' :: cs => some (.op .bitOr, cs)
  | '^' :: cs => some (.op .bitXor, cs)
  | '&' :: cs => some (.op .bitAnd, cs)
  | '<' :: cs => some (.cmp .lt, cs)
  | '>' :: cs => some (.cmp .gt, cs)
  | '~' :: cs => some (.tilde, cs)
  | '(' :: cs => some (.lpar, cs)
  | ')' :: cs => some (.rpar, cs)
  | '[' :: cs => some (.lbrack, cs)
  | ']' :: cs => some (.rbrack, cs)
  | ',' :: cs => some (.comma, cs)
  | '.' :: cs => some (.dot, cs)
  | '{' :: cs => some (.lbrace, cs)
  | '}' :: cs => some (.rbrace, cs)
  | ':' :: cs => some (.colon, cs)
  | _ => none

/-- A string in single quotes; escapes are not considered. -/
def scanStr (cs : Text) : Option (Tok × Text) :=
  match cs.dropWhile (fun c => c != '\'') with
  | [] => none
  | _ :: rest => if '\\' ∈ cs.takeWhile (fun c => c != '\'') then none else some (.str (cs.takeWhile (fun c => c != '\'')), rest)

/-- The next token of a text that does not begin with a space. -/
def scan (cs : Text) : Option (Tok × Text) :=
  match cs with
  | [] => none
  | c :: rest =>
    if identStart c then some (wordTok (cs.takeWhile identChar), cs.dropWhile identChar)
    else if c.isDigit then some (.num (scanNum cs).1, (scanNum cs).2)
    else if c = '\'' then scanStr rest
    else scanOp cs

/-- The tokens of a text, with at most `fuel` steps. -/
def lexWith : Nat → Text → Option (List Tok)
  | _, [] => some []
  | 0, _ :: _ => none
  | fuel + 1, c :: cs =>
    if c = ' ' then lexWith fuel cs
    else match scan (c :: cs) with
      | none => none
      | some (t, rest) => (lexWith fuel rest).map (fun ts => t :: ts)

/-- The tokens of a text. -/
def Lex (cs : Text) (ts : List Tok) : Prop := ∃ fuel, lexWith fuel cs = some ts

/-! ### Grammar -/

/-- The levels of the left-associative binary operators: `bitwise_or`, `bitwise_xor`, `bitwise_and`, `shift_expr`, `sum`, `term`. -/
def level : BinOp → Nat
  | .bitOr => 0
  | .bitXor => 1
  | .bitAnd => 2
  | .lShift => 3
  | .rShift => 3
  | .add => 4
  | .sub => 4
  | .mult => 5
  | .matMult => 5
  | .div => 5
  | .mod => 5
  | .floorDiv => 5

def kwOf : BoolOp → Tok
  | .and => .kw ['a', 'n', 'd']
  | .or => .kw ['o', 'r']

def kwNot : Tok := .kw ['n', 'o', 't']
def kwIf : Tok := .kw ['i', 'f']
def kwElse : Tok := .kw ['e', 'l', 's', 'e']

/-- The symbols of the grammar; those with an expression stand for the rest of a left-recursive rule, after this expression. -/
inductive Sym
  | expr
  | disj
  | conj
  | more (op : BoolOp)
  | inv
  | comp
  | cmps
  | lvl (n : Nat)
  | loop (n : Nat) (acc : Expr)
  | factor
  | power
  | primary
  | trail (acc : Expr)
  | atom
  | args
  | argsTail

/-- What a symbol yields: one expression, several, or comparisons. -/
inductive Out
  | one (e : Expr)
  | many (es : List Expr)
  | pairs (ps : List (CmpOp × Expr))

/-- `a op b op c` -/
def joinBool (op : BoolOp) (a : Expr) : List Expr → Expr
  | [] => a
  | b :: bs => .bool op (a :: b :: bs)

/-- `a < b < c` -/
def joinCmp (a : Expr) : List (CmpOp × Expr) → Expr
  | [] => a
  | p :: ps => .cmp a (p :: ps)

/-- The grammar: `Reads s ts o rest` says that the symbol `s` reads the first tokens of `ts` as `o`, and leaves `rest`. -/
inductive Reads : Sym → List Tok → Out → List Tok → Prop
  -- expression: disjunction 'if' disjunction 'else' expression | disjunction
  | exprIf {ts a r c r1 b r2} : Reads .disj ts (.one a) (kwIf :: r) → Reads .disj r (.one c) (kwElse :: r1) → Reads .expr r1 (.one b) r2 →
      Reads .expr ts (.one (.ite c a b)) r2
  | expr {ts a r} : Reads .disj ts (.one a) r → r.head? ≠ some kwIf → Reads .expr ts (.one a) r
  -- disjunction: conjunction ('or' conjunction)*
  | disj {ts a r bs r1} : Reads .conj ts (.one a) r → Reads (.more .or) r (.many bs) r1 → Reads .disj ts (.one (joinBool .or a bs)) r1
  | moreOr {ts a r bs r1} : Reads .conj ts (.one a) r → Reads (.more .or) r (.many bs) r1 → Reads (.more .or) (kwOf .or :: ts) (.many (a :: bs)) r1
  -- conjunction: inversion ('and' inversion)*
  | conj {ts a r bs r1} : Reads .inv ts (.one a) r → Reads (.more .and) r (.many bs) r1 → Reads .conj ts (.one (joinBool .and a bs)) r1
  | moreAnd {ts a r bs r1} : Reads .inv ts (.one a) r → Reads (.more .and) r (.many bs) r1 → Reads (.more .and) (kwOf .and :: ts) (.many (a :: bs)) r1
  | moreStop {op r} : r.head? ≠ some (kwOf op) → Reads (.more op) r (.many []) r
  -- inversion: 'not' inversion | comparison
  | invNot {ts a r} : Reads .inv ts (.one a) r → Reads .inv (kwNot :: ts) (.one (.un .not a)) r
  | inv {ts a r} : ts.head? ≠ some kwNot → Reads .comp ts (.one a) r → Reads .inv ts (.one a) r
  -- comparison: bitwise_or (compare_op bitwise_or)*
  | comp {ts a r ps r1} : Reads (.lvl 0) ts (.one a) r → Reads .cmps r (.pairs ps) r1 → Reads .comp ts (.one (joinCmp a ps)) r1
  | cmpsMore {op ts b r ps r1} : Reads (.lvl 0) ts (.one b) r → Reads .cmps r (.pairs ps) r1 → Reads .cmps (.cmp op :: ts) (.pairs ((op, b) :: ps)) r1
  | cmpsStop {r} : (∀ op, r.head? ≠ some (.cmp op)) → Reads .cmps r (.pairs []) r
  -- bitwise_or: bitwise_or '|' bitwise_xor | bitwise_xor, and so on down to term: term '*' factor | ... | factor
  | lvl {n ts a r e r1} : n < 6 → Reads (.lvl (n + 1)) ts (.one a) r → Reads (.loop n a) r (.one e) r1 → Reads (.lvl n) ts (.one e) r1
  | loopMore {n acc op ts b r e r1} : level op = n → Reads (.lvl (n + 1)) ts (.one b) r → Reads (.loop n (.bin op acc b)) r (.one e) r1 →
      Reads (.loop n acc) (.op op :: ts) (.one e) r1
  | loopStop {n acc r} : (∀ op, level op = n → r.head? ≠ some (.op op)) → Reads (.loop n acc) r (.one acc) r
  | lvlTop {ts a r} : Reads .factor ts (.one a) r → Reads (.lvl 6) ts (.one a) r
  -- factor: '+' factor | '-' factor | '~' factor | power
  | plus {ts a r} : Reads .factor ts (.one a) r → Reads .factor (.op .add :: ts) (.one (.un .uadd a)) r
  | minus {ts a r} : Reads .factor ts (.one a) r → Reads .factor (.op .sub :: ts) (.one (.un .usub a)) r
  | tilde {ts a r} : Reads .factor ts (.one a) r → Reads .factor (.tilde :: ts) (.one (.un .invert a)) r
  | factor {ts a r} : ts.head? ≠ some (.op .add) → ts.head? ≠ some (.op .sub) → ts.head? ≠ some .tilde → Reads .power ts (.one a) r → Reads .factor ts (.one a) r
  -- power: primary '**' factor | primary
  | powerMore {ts a r b r1} : Reads .primary ts (.one a) (.pow :: r) → Reads .factor r (.one b) r1 → Reads .power ts (.one (.pow a b)) r1
  | power {ts a r} : Reads .primary ts (.one a) r → r.head? ≠ some .pow → Reads .power ts (.one a) r
  -- primary: primary '.' NAME | primary '(' [arguments] ')' | primary '[' expression ']' | atom
  | primary {ts a r e r1} : Reads .atom ts (.one a) r → Reads (.trail a) r (.one e) r1 → Reads .primary ts (.one e) r1
  | trailDot {acc n ts e r} : Reads (.trail (.attr acc n)) ts (.one e) r → Reads (.trail acc) (.dot :: .name n :: ts) (.one e) r
  | trailCall {acc ts as r e r1} : Reads .args ts (.many as) r → Reads (.trail (.call acc as)) r (.one e) r1 → Reads (.trail acc) (.lpar :: ts) (.one e) r1
  | trailSubs {acc ts i r e r1} : Reads .expr ts (.one i) (.rbrack :: r) → Reads (.trail (.subs acc i)) r (.one e) r1 → Reads (.trail acc) (.lbrack :: ts) (.one e) r1
  | trailStop {acc r} : r.head? ≠ some .dot → r.head? ≠ some .lpar → r.head? ≠ some .lbrack → Reads (.trail acc) r (.one acc) r
  -- arguments: [expression (',' expression)*] ')'
  | argsNone {ts} : Reads .args (.rpar :: ts) (.many []) ts
  | args {ts a r as r1} : ts.head? ≠ some .rpar → Reads .expr ts (.one a) r → Reads .argsTail r (.many as) r1 → Reads .args ts (.many (a :: as)) r1
  | argsStop {ts} : Reads .argsTail (.rpar :: ts) (.many []) ts
  | argsMore {ts a r as r1} : Reads .expr ts (.one a) r → Reads .argsTail r (.many as) r1 → Reads .argsTail (.comma :: ts) (.many (a :: as)) r1
  -- atom: NAME | NUMBER | STRING | '(' expression ')'
  | name {s r} : Reads .atom (.name s :: r) (.one (.name s)) r
  | num {s r} : Reads .atom (.num s :: r) (.one (.num false s)) r
  | str {s r} : Reads .atom (.str s :: r) (.one (.str s)) r
  | group {ts a r} : Reads .expr ts (.one a) (.rpar :: r) → Reads .atom (.lpar :: ts) (.one a) r

/-- Python reads the text as this expression. -/
def Denotes (cs : Text) (e : Expr) : Prop := ∃ ts, Lex cs ts ∧ Reads .expr ts (.one e) []

/-! ### Well-formed expressions -/

/-- A name: not a keyword. -/
def Name (s : Text) : Prop := (∃ c cs, s = c :: cs ∧ identStart c = true ∧ ∀ x ∈ cs, identChar x = true) ∧ s ∉ keywords

/-- The text of a number: digits, possibly with a fraction and an exponent. -/
def Number (s : Text) : Prop :=
  ∃ i f x, s = i ++ (f ++ x) ∧ i ≠ [] ∧ (∀ c ∈ i, c.isDigit = true) ∧
    (f = [] ∨ ∃ ds, f = '.' :: ds ∧ ∀ c ∈ ds, c.isDigit = true) ∧
    (x = [] ∨ ∃ sg ds, x = 'e' :: (sg ++ ds) ∧ (sg = [] ∨ sg = ['+'] ∨ sg = ['-']) ∧ ds ≠ [] ∧ ∀ c ∈ ds, c.isDigit = true)

/-- The characters of a string without escapes. -/
def Plain (s : Text) : Prop := ∀ c ∈ s, c ≠ '\'' ∧ c ≠ '\\'

/-- A number with sign. -/
def Negative : Expr → Prop
  | .num neg _ => neg = true
  | _ => False

/-- A number. -/
def IsNumber : Expr → Prop
  | .num _ _ => True
  | _ => False

/-- Expressions as Python's parser builds them, and with negative numbers except where an operator or trailer would take only the number without its sign. -/
inductive WF : Expr → Prop
  | name {s} : Name s → WF (.name s)
  | num {neg s} : Number s → WF (.num neg s)
  | str {s} : Plain s → WF (.str s)
  | attr {e a} : WF e → ¬ IsNumber e → Name a → WF (.attr e a)
  | call {f args} : WF f → ¬ Negative f → (∀ e ∈ args, WF e) → WF (.call f args)
  | subs {e i} : WF e → ¬ Negative e → WF i → WF (.subs e i)
  | un {op e} : WF e → WF (.un op e)
  | bin {op a b} : WF a → WF b → WF (.bin op a b)
  | pow {a b} : WF a → ¬ Negative a → WF b → WF (.pow a b)
  | bool {op es} : 2 ≤ es.length → (∀ e ∈ es, WF e) → WF (.bool op es)
  | cmp {a ps} : WF a → ps ≠ [] → (∀ p ∈ ps, WF p.2) → WF (.cmp a ps)
  | ite {t b o} : WF t → WF b → WF o → WF (.ite t b o)

mutual
/-- The expression with `-` as an operator in place of negative numbers. -/
def signs : Expr → Expr
  | .name s => .name s
  | .num neg s => if neg then .un .usub (.num false s) else .num false s
  | .str s => .str s
  | .attr e a => .attr (signs e) a
  | .call f args => .call (signs f) (signsList args)
  | .subs e i => .subs (signs e) (signs i)
  | .un op e => .un op (signs e)
  | .bin op a b => .bin op (signs a) (signs b)
  | .pow a b => .pow (signs a) (signs b)
  | .bool op es => .bool op (signsList es)
  | .cmp a ps => .cmp (signs a) (signsPairs ps)
  | .ite t b o => .ite (signs t) (signs b) (signs o)

def signsList : List Expr → List Expr
  | [] => []
  | e :: es => signs e :: signsList es

def signsPairs : List (CmpOp × Expr) → List (CmpOp × Expr)
  | [] => []
  | p :: ps => (p.1, signs p.2) :: signsPairs ps
end

/-- No negative numbers, as in every expression that Python has read. -/
def Unsigned (e : Expr) : Prop := signs e = e

end Verif.Spec.PyText
