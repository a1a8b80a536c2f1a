import Verif.Model.Manager

/-!
# The class attribute

Model of the conversions of styles and style sources into the `Classes` of Yew
(`packages/stylist/src/yew/mod.rs`), with the class that the feature `debug_style_locations`
adds, and of what Yew makes of them: the `class` attribute of an element.
-/

namespace Classes

open Manager

/-- `str::split_whitespace`: `acc` is the word so far. -/
def wordsFrom : Str → Str → List Str
  | acc, [] => if acc = [] then [] else [acc]
  | acc, c :: s =>
    if Str.isWhitespace c then (if acc = [] then [] else [acc]) ++ wordsFrom [] s else wordsFrom (acc ++ [c]) s

/-- `str::split_whitespace` (standard library). -/
def words (s : Str) : List Str := wordsFrom [] s

/-- `IndexSet::insert` on the classes of an element (crate `indexmap`, used by Yew). -/
def addClass (set : List Str) (w : Str) : List Str := if w ∈ set then set else set ++ [w]

/-- Yew's `Classes::push` of a `String`: the words of the string are added. (Yew is not in
/repo; this is its documented behaviour.) -/
def push (set : List Str) (t : Str) : List Str := (words t).foldl addClass set

/-- `std::panic::Location`. -/
structure Location where
  file : Str
  line : Nat
  column : Nat
deriving DecidableEq

/-- `StyleSource::get_caller_location`.
/repo/packages/stylist/src/style_src.rs 33-43 -/
def Location.text (l : Location) : Str :=
  l.file ++ c! ":" ++ decimal l.line ++ c! ":" ++ decimal l.column

/-- `From<Style> for Classes`; `cls` is the class name of the style.
/repo/packages/stylist/src/yew/mod.rs 115-121 -/
def ofStyle (cls : Str) : List Str := push [] cls

/-- `From<StyleSource> for Classes`; `cls` is the class name of the style that is made from the
source (`Sources.classes`), `debug` tells if the crate is built with debug assertions and the
feature `debug_style_locations`.
/repo/packages/stylist/src/yew/mod.rs 123-134 -/
def ofSource (debug : Bool) (cls : Str) (loc : Location) : List Str :=
  if debug then push (push [] cls) loc.text else push [] cls

/-- What is written in `class={classes!(…)}`: a style, a style source, or the user's own text.
/repo/packages/stylist/src/yew/mod.rs 136-146 -/
inductive Item where
  | style (cls : Str)
  | source (cls : Str) (loc : Location)
  | text (t : Str)
deriving DecidableEq

/-- The classes of one item. -/
def Item.classes (debug : Bool) : Item → List Str
  | .style cls => ofStyle cls
  | .source cls loc => ofSource debug cls loc
  | .text t => push [] t

/-- The `class` attribute that Yew gives to the element: the classes in order without
repetition, with a space between them. (Yew, as above.) -/
def classAttr (debug : Bool) (items : List Item) : Str :=
  Str.join [' '] (items.foldl (fun set i => (i.classes debug).foldl addClass set) [])

/-- An item of a program: a handle of a style as it was after `n` operations, or the style that
was made from a source then; or text. -/
inductive Piece where
  | style (n h : Nat)
  | source (n h : Nat) (loc : Location)
  | text (t : Str)
deriving DecidableEq

/-- The style that a piece names. -/
def Piece.content (env : Env) (d : Dom) (ops : List Op) : Piece → Option Nat
  | .style n h => (run env (ops.take n) (St.init d)).contentOf h
  | .source n h _ => (run env (ops.take n) (St.init d)).contentOf h
  | .text _ => none

/-- The class is read when the piece is used: `get_class_name`
(/repo/packages/stylist/src/style.rs 179-181). Without a handle there is no class. -/
def Piece.item (env : Env) (d : Dom) (ops : List Op) : Piece → Item
  | .style n h => .style (((run env (ops.take n) (St.init d)).className h).getD [])
  | .source n h loc => .source (((run env (ops.take n) (St.init d)).className h).getD []) loc
  | .text t => .text t

end Classes
