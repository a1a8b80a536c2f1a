import Verif.Base

/-!
# Styled components

Model of `packages/stylist-macros/src/styled_component.rs` and
`packages/stylist-macros/src/styled_component_impl.rs`: what the attributes make of a
function, and what the names in the result refer to.

The result is Rust code, so the part of Rust that the macro is written for is part of the
model: the resolution of local variables with hygiene (a name carries the marks of the
expansions it comes from, the name of a hidden variable carries the mark of the attribute and
is looked up where the `macro_rules!` was written), the textual scope of `macro_rules!`,
functions inside of functions, which see macros but no variables, and which closures take a
variable away. Types, labels, names of items, imports inside of functions, `break` and
`return` are not modelled, and of the variables only the hidden one is checked for moves, since
it is the only one whose type is known.
-/

namespace Styled

/-! ### The code that the user writes -/

mutual
/-- An expression of the user. `css` is `css!(…)` with the expressions in it, `app` any
expression with parts that are evaluated one after the other (a call, `html!`, an operator,
a literal), `closure` a closure or an `async` block, with `mv` if it is written with `move`.
Binders carry a label, so that a use can tell which one it refers to. -/
inductive Expr where
  | var (x : Str)
  | css (args : List Expr)
  | app (es : List Expr)
  | block (b : List Stmt)
  | closure (mv : Bool) (ps : List (Str × Nat)) (b : List Stmt)
  | cond (c : Expr) (a b : List Stmt)
  | loop (b : List Stmt)

/-- A statement: an expression, a `let`, a function, which may have the attribute
`#[styled_component]` or `#[styled_component_impl]`, or a `macro_rules! css` of the user. -/
inductive Stmt where
  | expr (e : Expr)
  | let_ (x : Str) (l : Nat) (e : Expr)
  | fn_ (styled : Bool) (l : Nat) (ps : List (Str × Nat)) (b : List Stmt)
  | macro_ (l : Nat)
end

/-! ### The code after the attributes are expanded -/

/-- Where an identifier comes from: from the expansion of the attribute on the function with a
label, or from a call of the `macro_rules!` with a label. -/
inductive Mark where
  | attr (l : Nat)
  | mac (l : Nat)
deriving DecidableEq, Repr

/-- An identifier with its marks, the latest first. -/
structure Id where
  name : Str
  marks : List Mark
deriving DecidableEq, Repr

/-- A name that the user wrote. -/
def user (x : Str) : Id := ⟨x, []⟩

/-- The hidden variable of the function with label `l`:
`Ident::new("__stylist_style_manager__", Span::mixed_site())`.
/repo/packages/stylist-macros/src/styled_component_impl.rs 46 -/
def hidden (l : Nat) : Id := ⟨c! "__stylist_style_manager__", [.attr l]⟩

mutual
/-- Expressions of the expanded code. -/
inductive CExpr where
  | var (x : Id)
  | css (args : List CExpr)
  | app (es : List CExpr)
  | block (b : List CStmt)
  | closure (mv : Bool) (ps : List (Id × Nat)) (b : List CStmt)
  | cond (c : CExpr) (a b : List CStmt)
  | loop (b : List CStmt)

/-- Statements of the expanded code. `manager x l` is
`let x = ::yew::functional::use_context::<::stylist::manager::StyleManager>().unwrap_or_default();`
and `rules x l` is the `macro_rules! css` that stands for
`::stylist::css!(…).with_manager(x.clone())`. -/
inductive CStmt where
  | expr (e : CExpr)
  | let_ (x : Id) (l : Nat) (e : CExpr)
  | fn_ (l : Nat) (ps : List (Id × Nat)) (b : List CStmt)
  | macro_ (l : Nat)
  | manager (x : Id) (l : Nat)
  | rules (x : Id) (l : Nat)
end

/-- Parameters as the user wrote them. -/
def params (ps : List (Str × Nat)) : List (Id × Nat) := ps.map fun p => (user p.1, p.2)

/-- The body that `styled_component_impl` writes: the hidden variable, the macro, and then
the block of the user as a block of its own.
/repo/packages/stylist-macros/src/styled_component_impl.rs 46-67 -/
def styledBody (l : Nat) (b : List CStmt) : List CStmt :=
  [.manager (hidden l) l, .rules (hidden l) l, .expr (.block b)]

mutual
/-- The code with all attributes expanded; everything else stays as it is. -/
def Expr.expand : Expr → CExpr
  | .var x => .var (user x)
  | .css args => .css (expandEs args)
  | .app es => .app (expandEs es)
  | .block b => .block (expandSs b)
  | .closure mv ps b => .closure mv (params ps) (expandSs b)
  | .cond c a b => .cond c.expand (expandSs a) (expandSs b)
  | .loop b => .loop (expandSs b)
/-- The same for one statement.
/repo/packages/stylist-macros/src/styled_component_impl.rs 36-70,
/repo/packages/stylist-macros/src/styled_component.rs 43-59 -/
def Stmt.expand : Stmt → CStmt
  | .expr e => .expr e.expand
  | .let_ x l e => .let_ (user x) l e.expand
  | .fn_ styled l ps b =>
    .fn_ l (params ps) (if styled then styledBody l (expandSs b) else expandSs b)
  | .macro_ l => .macro_ l
/-- The same for several expressions. -/
def expandEs : List Expr → List CExpr
  | [] => []
  | e :: es => e.expand :: expandEs es
/-- The same for several statements. -/
def expandSs : List Stmt → List CStmt
  | [] => []
  | s :: ss => s.expand :: expandSs ss
end

/-! ### What names refer to -/

/-- What is passed on the way from a use outwards: a binder, the border of a function, or the
place where a `macro_rules!` is defined. (The ribs of the compiler.) -/
inductive Rib where
  | bind (x : Id) (l : Nat)
  | fnItem
  | macroDef (l : Nat)
deriving DecidableEq, Repr

/-- What a variable refers to: a binder, nothing (`E0425`), or a variable of a surrounding
function (`E0434`, which is an error too). -/
inductive Res where
  | binder (l : Nat)
  | unbound
  | captured
deriving DecidableEq, Repr

/-- The identifier as seen from outside of the definition of a macro: a mark of this macro is
taken off. -/
def Id.leave (i : Id) (l : Nat) : Id :=
  match i.marks with
  | .mac l' :: ms => if l' = l then ⟨i.name, ms⟩ else i
  | _ => i

/-- Resolution of a local variable, from the inside to the outside; `crossed`: the border of a
function was passed. -/
def lookup (i : Id) (crossed : Bool) : List Rib → Res
  | [] => .unbound
  | .bind x l :: rs => if x = i then (if crossed then .captured else .binder l) else lookup i crossed rs
  | .fnItem :: rs => lookup i true rs
  | .macroDef l :: rs => lookup (i.leave l) crossed rs

/-- What `css!` means at a place: the imported `stylist::css!`, a macro of the user, or the
macro that the attribute wrote. -/
inductive Cur where
  | imported
  | own (l : Nat)
  | rules (x : Id) (l : Nat)
deriving DecidableEq, Repr

/-- What a call of `css!` uses: no manager, a macro of the user, or a variable as the manager,
with `gone` if the variable was moved before (`E0382`). -/
inductive Target where
  | imported
  | own (l : Nat)
  | manager (r : Res) (gone : Bool)
deriving DecidableEq, Repr

/-- A use of a name, as the compiler sees it. -/
inductive Use where
  | var (x : Str) (r : Res)
  | css (t : Target)
deriving DecidableEq, Repr

/-- What surrounds a place. -/
structure Scope where
  ribs : List Rib
  cur : Cur
deriving Repr

/-- The binders whose value was moved away, and those that were mentioned. -/
structure Moves where
  moved : List Nat
  mentioned : List Nat
deriving DecidableEq, Repr

/-- Add parameters. -/
def Scope.bindAll (sc : Scope) (ps : List (Id × Nat)) : Scope :=
  { sc with ribs := (ps.reverse.map fun p => Rib.bind p.1 p.2) ++ sc.ribs }

/-- A call of `css!` (after its arguments): if it is the macro of the attribute, it mentions
the hidden variable, with the mark of this call, and clones it.
/repo/packages/stylist-macros/src/styled_component_impl.rs 49-56 -/
def callCss (sc : Scope) (m : Moves) : List Use × Moves :=
  match sc.cur with
  | .imported => ([.css .imported], m)
  | .own l => ([.css (.own l)], m)
  | .rules x l =>
    match lookup ⟨x.name, .mac l :: x.marks⟩ false sc.ribs with
    | .binder b =>
      ([.css (.manager (.binder b) (m.moved.contains b))], { m with mentioned := m.mentioned ++ [b] })
    | r => ([.css (.manager r false)], m)

/-- What a closure does to the variables around it when it is made: with `move` it takes every
variable it mentions, without `move` those that are taken inside of it. -/
def closeOver (mv : Bool) (m inner : Moves) : Moves :=
  { moved := if mv then inner.moved ++ inner.mentioned else inner.moved
    mentioned := m.mentioned ++ inner.mentioned }

mutual
/-- The uses of names in an expression, in the order of evaluation. The body of a loop is
looked at as in its second round, when what it moved is gone already. -/
def CExpr.uses (sc : Scope) (m : Moves) : CExpr → List Use × Moves
  | .var x => ([.var x.name (lookup x false sc.ribs)], m)
  | .css args =>
    let r := usesEs sc m args
    let q := callCss sc r.2
    (r.1 ++ q.1, q.2)
  | .app es => usesEs sc m es
  | .block b => usesSs sc m b
  | .closure mv ps b =>
    let r := usesSs (sc.bindAll ps) { moved := m.moved, mentioned := [] } b
    (r.1, closeOver mv m r.2)
  | .cond c a b =>
    let r := c.uses sc m
    let x := usesSs sc r.2 a
    let y := usesSs sc r.2 b
    (r.1 ++ x.1 ++ y.1, { moved := x.2.moved ++ y.2.moved, mentioned := x.2.mentioned ++ y.2.mentioned })
  | .loop b => usesSs sc (usesSs sc m b).2 b
/-- The uses in several expressions. -/
def usesEs (sc : Scope) (m : Moves) : List CExpr → List Use × Moves
  | [] => ([], m)
  | e :: es =>
    let r := e.uses sc m
    let q := usesEs sc r.2 es
    (r.1 ++ q.1, q.2)
/-- The uses in the statements of a block. A variable is in scope after its `let`, a macro
after its definition; a function sees the macros but none of the variables. -/
def usesSs (sc : Scope) (m : Moves) : List CStmt → List Use × Moves
  | [] => ([], m)
  | .expr e :: ss =>
    let r := e.uses sc m
    let q := usesSs sc r.2 ss
    (r.1 ++ q.1, q.2)
  | .let_ x l e :: ss =>
    let r := e.uses sc m
    let q := usesSs { sc with ribs := .bind x l :: sc.ribs } r.2 ss
    (r.1 ++ q.1, q.2)
  | .fn_ _ ps b :: ss =>
    let r := usesSs (Scope.bindAll { sc with ribs := .fnItem :: sc.ribs } ps) ⟨[], []⟩ b
    let q := usesSs sc m ss
    (r.1 ++ q.1, q.2)
  | .macro_ l :: ss => usesSs { ribs := .macroDef l :: sc.ribs, cur := .own l } m ss
  | .manager x l :: ss => usesSs { sc with ribs := .bind x l :: sc.ribs } m ss
  | .rules x l :: ss => usesSs { ribs := .macroDef l :: sc.ribs, cur := .rules x l } m ss
end

/-- The uses of names in a piece of code as the compiler sees them, outside of which
`stylist::css` is imported. -/
def uses (b : List CStmt) : List Use := (usesSs ⟨[], .imported⟩ ⟨[], []⟩ b).1

/-- The compiler reports an error for this use. -/
def Use.error : Use → Bool
  | .var _ (.binder _) => false
  | .var _ _ => true
  | .css .imported | .css (.own _) => false
  | .css (.manager (.binder _) gone) => gone
  | .css (.manager _ _) => true

/-- The expanded code compiles, as far as names and the hidden variables go. -/
def compiles (b : List Stmt) : Bool := (uses (expandSs b)).all fun u => !u.error

/-! ### The functions that the attributes are put on -/

/-- A token of the arguments of an attribute. -/
inductive ArgTok where
  | word (w : Str)
  | other
deriving DecidableEq, Repr

/-- Words that `syn` does not read as identifiers (`syn::ident::accept_as_ident`). -/
def keywords : List Str :=
  [c! "_", c! "abstract", c! "as", c! "async", c! "await", c! "become", c! "box", c! "break", c! "const",
   c! "continue", c! "crate", c! "do", c! "dyn", c! "else", c! "enum", c! "extern", c! "false", c! "final",
   c! "fn", c! "for", c! "if", c! "impl", c! "in", c! "let", c! "loop", c! "macro", c! "match", c! "mod",
   c! "move", c! "mut", c! "override", c! "priv", c! "pub", c! "ref", c! "return", c! "Self", c! "self",
   c! "static", c! "struct", c! "super", c! "trait", c! "true", c! "try", c! "type", c! "typeof",
   c! "unsafe", c! "unsized", c! "use", c! "virtual", c! "where", c! "while", c! "yield"]

/-- `StyledComponentArgs`: no arguments or a name; `none` is an error, also if there is more
after the name (`parse_macro_input!`).
/repo/packages/stylist-macros/src/styled_component.rs 9-25 -/
def parseArgs : List ArgTok → Option (Option Str)
  | [] => some none
  | [.word w] => if keywords.contains w then none else some (some w)
  | _ => none

/-- A function: attributes (here only `#[function_component(…)]`, with its arguments, and
others), visibility, signature and body. -/
inductive Attr where
  | functionComponent (name : Option Str)
  | other (text : Str)
deriving DecidableEq, Repr

/-- `syn::ItemFn`; visibility and signature as text. -/
structure ItemFn (β : Type) where
  attrs : List Attr
  vis : Str
  sig : Str
  block : β

/-- `syn::Item`: a function or something else. -/
inductive Item (β : Type) where
  | fn_ (f : ItemFn β)
  | other

/-- `styled_component_impl_impl`: attributes, visibility and signature stay.
/repo/packages/stylist-macros/src/styled_component_impl.rs 36-70 -/
def implImpl (l : Nat) (f : ItemFn (List CStmt)) : ItemFn (List CStmt) :=
  { attrs := f.attrs, vis := f.vis, sig := f.sig, block := styledBody l f.block }

/-- `#[styled_component_impl]`: the item must be a function, arguments are not allowed.
/repo/packages/stylist-macros/src/styled_component_impl.rs 12-34, 72-82 -/
def styledComponentImpl (l : Nat) (args : List ArgTok) : Item (List CStmt) → Option (ItemFn (List CStmt))
  | .fn_ f => if args.isEmpty then some (implImpl l f) else none
  | .other => none

/-- `#[styled_component]`: the item must be a function; the arguments go to
`#[function_component]`, which is put before the other attributes.
/repo/packages/stylist-macros/src/styled_component.rs 27-71 -/
def styledComponent (l : Nat) (args : List ArgTok) : Item (List CStmt) → Option (ItemFn (List CStmt))
  | .fn_ f =>
    match parseArgs args with
    | some name =>
      let inner := implImpl l f
      some { inner with attrs := .functionComponent name :: inner.attrs }
    | none => none
  | .other => none

end Styled
