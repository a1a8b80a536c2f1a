/-!
# Strings

Rust strings are modelled as lists of Unicode scalar values (`List Char`). This
file holds the few `str` functions of the Rust standard library that the code
uses. They are trusted to describe the library, and cite their documentation.
-/

/-- A Rust `String` / `&str` / `Cow<str>`: the list of its characters. -/
abbrev Str := List Char

open Lean in
/-- `c! "ab"` is the explicit list `['a', 'b']`. -/
macro "c! " s:str : term => do
  let cs := s.getString.toList.map (fun c => Syntax.mkCharLit c)
  `(([$(cs.toArray),*] : Str))

namespace Str

/-- `str::starts_with(&str)`. -/
def startsWith (p s : Str) : Bool := p.isPrefixOf s

/-- `str::contains(&str)`: `p` occurs in `s` at some position. -/
def contains (p : Str) : Str → Bool
  | [] => p.isEmpty
  | c :: s => p.isPrefixOf (c :: s) || contains p s

/-- `str::contains(char)`. -/
def containsChar (c : Char) (s : Str) : Bool := s.elem c

/-- `str::replace(char, &str)`. -/
def replaceChar (c : Char) (rep : Str) (s : Str) : Str :=
  s.flatMap (fun d => if d = c then rep else [d])

/-- Helper of `replace`: `skip` characters of the current match are still to be
dropped. -/
def replaceGo (pat rep : Str) : Nat → Str → Str
  | _, [] => []
  | n + 1, _ :: s => replaceGo pat rep n s
  | 0, c :: s =>
    if pat.isPrefixOf (c :: s) then rep ++ replaceGo pat rep (pat.length - 1) s
    else c :: replaceGo pat rep 0 s

/-- `str::replace(&str, &str)` for a non-empty pattern: matches are found from
left to right and do not overlap. (The code only calls it with `":root"`.) -/
def replace (pat rep s : Str) : Str := replaceGo pat rep 0 s

/-- `slice::join` / repeated `push_str` with a separator between elements. -/
def join (sep : Str) : List Str → Str
  | [] => []
  | [s] => s
  | s :: t => s ++ sep ++ join sep t

/-- `char::is_whitespace`: the Unicode `White_Space` property. -/
def isWhitespace (c : Char) : Bool :=
  let n := c.val.toNat
  (9 ≤ n && n ≤ 13) || n == 0x20 || n == 0x85 || n == 0xA0 || n == 0x1680 ||
  (0x2000 ≤ n && n ≤ 0x200A) || n == 0x2028 || n == 0x2029 || n == 0x202F ||
  n == 0x205F || n == 0x3000

/-- `str::trim_start`. -/
def trimStart (s : Str) : Str := s.dropWhile isWhitespace

/-- `str::trim_end`. -/
def trimEnd : Str → Str
  | [] => []
  | c :: s =>
    match trimEnd s with
    | [] => if isWhitespace c then [] else [c]
    | t => c :: t

/-- `str::trim`. -/
def trim (s : Str) : Str := trimEnd (trimStart s)

end Str
