import Verif.Base

/-!
# nom combinators

The parts of nom 7.1 that the parser uses (`packages/stylist-core/src/parser.rs` 4-11),
all of the `complete` kind, on `&str` input. An `IResult` is `Option (rest, value)`:
the parser only ever produces recoverable errors (`nom::Err::Error`), and error
payloads do not influence control flow, so they are dropped.

`many0`, `many1` and `separated_list1` are loops. They are defined with a budget that
is set to the input length plus one; each round consumes at least one character, so
the budget is never the reason to stop (`Proofs/Nom.lean`).
-/

/-- A parser: remaining input and value, or a recoverable error. -/
abbrev Parser (α : Type) := Str → Option (Str × α)

namespace Nom

/-- `nom::combinator::map`. -/
def map {α β : Type} (p : Parser α) (f : α → β) : Parser β := fun i =>
  match p i with
  | none => none
  | some (r, a) => some (r, f a)

/-- `nom::branch::alt` on two alternatives (longer ones are nested). -/
def alt {α : Type} (p q : Parser α) : Parser α := fun i =>
  match p i with
  | none => q i
  | some x => some x

/-- `nom::combinator::fail`. -/
def fail {α : Type} : Parser α := fun _ => none

/-- `nom::bytes::complete::tag`. -/
def tag (t : Str) : Parser Str := fun i =>
  if t.isPrefixOf i then some (i.drop t.length, t) else none

/-- `nom::bytes::complete::take_while1`. -/
def takeWhile1 (f : Char → Bool) : Parser Str := fun i =>
  match i.takeWhile f with
  | [] => none
  | t => some (i.dropWhile f, t)

/-- `nom::bytes::complete::is_not`: one or more characters not in the set. -/
def isNot (set : Str) : Parser Str := takeWhile1 (fun c => !set.elem c)

/-- `nom::character::complete::none_of`: one character not in the set. -/
def noneOf (set : Str) : Parser Char
  | [] => none
  | c :: i => if set.elem c then none else some (i, c)

/-- `nom::character::complete::anychar`. -/
def anychar : Parser Char
  | [] => none
  | c :: i => some (i, c)

/-- ASCII letters (`u8::is_ascii_alphabetic`). -/
def isAlpha (c : Char) : Bool :=
  ('a' ≤ c && c ≤ 'z') || ('A' ≤ c && c ≤ 'Z')

/-- ASCII letters and digits. -/
def isAlnum (c : Char) : Bool := isAlpha c || ('0' ≤ c && c ≤ '9')

/-- `nom::character::complete::alpha1` (ASCII only for `&str`). -/
def alpha1 : Parser Str := takeWhile1 isAlpha

/-- `nom::character::complete::alphanumeric1`. -/
def alphanumeric1 : Parser Str := takeWhile1 isAlnum

/-- `nom::combinator::not`: succeeds, consuming nothing, iff `p` fails. -/
def not {α : Type} (p : Parser α) : Parser Unit := fun i =>
  match p i with
  | none => some (i, ())
  | some _ => none

/-- `nom::combinator::opt`. -/
def opt {α : Type} (p : Parser α) : Parser (Option α) := fun i =>
  match p i with
  | none => some (i, none)
  | some (r, a) => some (r, some a)

/-- `nom::combinator::recognize`: the consumed slice. -/
def recognize {α : Type} (p : Parser α) : Parser Str := fun i =>
  match p i with
  | none => none
  | some (r, _) => some (r, i.take (i.length - r.length))

/-- `nom::sequence::pair`. -/
def pair {α β : Type} (p : Parser α) (q : Parser β) : Parser (α × β) := fun i =>
  match p i with
  | none => none
  | some (r, a) =>
    match q r with
    | none => none
    | some (r', b) => some (r', (a, b))

/-- `nom::sequence::preceded`. -/
def preceded {α β : Type} (p : Parser α) (q : Parser β) : Parser β := map (pair p q) Prod.snd

/-- `nom::sequence::terminated`. -/
def terminated {α β : Type} (p : Parser α) (q : Parser β) : Parser α := map (pair p q) Prod.fst

/-- `nom::sequence::delimited`. -/
def delimited {α β γ : Type} (p : Parser α) (q : Parser β) (r : Parser γ) : Parser β :=
  preceded p (terminated q r)

/-- `nom::sequence::separated_pair`. -/
def separatedPair {α β γ : Type} (p : Parser α) (s : Parser β) (q : Parser γ) : Parser (α × γ) :=
  pair p (preceded s q)

/-- The loop of `nom::multi::many0`: an error of `p` ends the loop; a success that
consumes nothing is an error. -/
def many0Loop {α : Type} (p : Parser α) : Nat → Parser (List α)
  | 0, _ => none
  | n + 1, i =>
    match p i with
    | none => some (i, [])
    | some (r, a) =>
      if r.length = i.length then none
      else
        match many0Loop p n r with
        | none => none
        | some (r', as) => some (r', a :: as)

/-- `nom::multi::many0`. -/
def many0 {α : Type} (p : Parser α) : Parser (List α) := fun i => many0Loop p (i.length + 1) i

/-- `nom::multi::many1`: the first round must succeed and is not checked for
consumption, then as `many0`. -/
def many1 {α : Type} (p : Parser α) : Parser (List α) := fun i =>
  match p i with
  | none => none
  | some (r, a) =>
    match many0 p r with
    | none => none
    | some (r', as) => some (r', a :: as)

/-- The loop of `nom::multi::separated_list1`: an error of the separator ends the
loop, a separator that consumes nothing is an error, and an error of the element
after a separator ends the loop at the position before that separator. -/
def sepLoop {α β : Type} (s : Parser α) (p : Parser β) : Nat → Parser (List β)
  | 0, _ => none
  | n + 1, i =>
    match s i with
    | none => some (i, [])
    | some (r, _) =>
      if r.length = i.length then none
      else
        match p r with
        | none => some (i, [])
        | some (r', b) =>
          match sepLoop s p n r' with
          | none => none
          | some (r'', bs) => some (r'', b :: bs)

/-- `nom::multi::separated_list1`. -/
def separatedList1 {α β : Type} (s : Parser α) (p : Parser β) : Parser (List β) := fun i =>
  match p i with
  | none => none
  | some (r, b) =>
    match sepLoop s p (r.length + 1) r with
    | none => none
    | some (r', bs) => some (r', b :: bs)

end Nom
