import Verif.Model.Ast

/-!
# Specification of rendering

What the generated text of a sheet should mean, stated without reference to
contexts, open flags or the writer.
-/

namespace Spec

/-- Replace, in one pass from left to right, every `&` and every `:root` by `cur`. -/
def expand (cur : Str) : Str → Str
  | [] => []
  | '&' :: s => cur ++ expand cur s
  | ':' :: 'r' :: 'o' :: 'o' :: 't' :: s => cur ++ expand cur s
  | c :: s => c :: expand cur s

/-- Replace every `&` by `cur`. -/
def expandAmp (cur : Str) : Str → Str
  | [] => []
  | '&' :: s => cur ++ expandAmp cur s
  | c :: s => c :: expandAmp cur s

/-- The selector that stands for "the current element": the generated class, or the
root element for a global style. -/
def current : Option Str → Str
  | some c => '.' :: c
  | none => c! ":root"

/-- How a selector text is to be printed (README and docs of `Style`). -/
def scopeSelector (cls : Option Str) (s : Str) : Str :=
  match cls with
  | none => expandAmp (c! ":root") s
  | some c =>
    if '&' ∈ s ∨ c! ":root" <:+: s then expand ('.' :: c) s
    else if s.head? = some ':' then '.' :: c ++ s
    else '.' :: c ++ ' ' :: s

/-- A declaration together with the conditions it is under: at-rule conditions from
the outermost to the innermost, then its selector. -/
structure Decl where
  path : List Str
  key : Str
  value : Str
deriving DecidableEq, Repr

/-- The selector that holds inside a block: a block without selectors is transparent,
otherwise its own selectors, printed by `sel` and separated by `", "`. -/
def blockSelector (sel : Str → Str) (cur : Str) (outer : Option Str) (cond : List Selector) : Str :=
  match cond with
  | [] => outer.getD cur
  | _ => Str.join (c! ", ") (cond.map (fun s => sel s.flatten))

mutual
/-- The declarations of a piece of a sheet that sits under the at-rules `rules` and
the selector `outer`. `sel` says how a selector is printed, `cur` is the current
element's selector. -/
def declsIn (sel : Str → Str) (cur : Str) (rules : List Str) (outer : Option Str) :
    RBC → List Decl
  | .attr k v => [⟨rules ++ outer.toList, k, v.flatten⟩]
  | .rule c b => declsInAll sel cur (rules ++ [c.flatten]) outer b
  | .block c b => declsInAll sel cur rules (some (blockSelector sel cur outer c)) b
def declsInAll (sel : Str → Str) (cur : Str) (rules : List Str) (outer : Option Str) :
    List RBC → List Decl
  | [] => []
  | x :: xs => declsIn sel cur rules outer x ++ declsInAll sel cur rules outer xs
end

mutual
/-- The condition paths of the `@keyframes` at-rules. -/
def keyframesIn (sel : Str → Str) (cur : Str) (rules : List Str) (outer : Option Str) :
    RBC → List (List Str)
  | .attr _ _ => []
  | .rule c b =>
    (if c! "@keyframes" <+: c.flatten then [rules ++ [c.flatten] ++ outer.toList] else []) ++
      keyframesInAll sel cur (rules ++ [c.flatten]) outer b
  | .block c b => keyframesInAll sel cur rules (some (blockSelector sel cur outer c)) b
def keyframesInAll (sel : Str → Str) (cur : Str) (rules : List Str) (outer : Option Str) :
    List RBC → List (List Str)
  | [] => []
  | x :: xs => keyframesIn sel cur rules outer x ++ keyframesInAll sel cur rules outer xs
end

/-- The declarations of a sheet rendered for class `cls` (or globally). -/
def decls (cls : Option Str) (s : Sheet) : List Decl :=
  declsInAll (scopeSelector cls) (current cls) [] none (s.map ScopeContent.toRBC)

/-- The `@keyframes` of a sheet. -/
def keyframes (cls : Option Str) (s : Sheet) : List (List Str) :=
  keyframesInAll (scopeSelector cls) (current cls) [] none (s.map ScopeContent.toRBC)

/-! ## The text as a stream of events -/

/-- The three kinds of line in a generated style sheet. -/
inductive Ev where
  | opn (header : Str)
  | cls
  | decl (key value : Str)
deriving DecidableEq, Repr

/-- Four spaces per level. -/
def indent (d : Nat) : Str := List.replicate (4 * d) ' '

/-- The text of a stream of events: one line each, indented by the number of headers
open at that point (a closing brace is aligned with its header). -/
def layout : Nat → List Ev → Str
  | _, [] => []
  | d, .opn h :: es => indent d ++ h ++ c! " {\n" ++ layout (d + 1) es
  | d, .cls :: es => indent (d - 1) ++ c! "}\n" ++ layout (d - 1) es
  | d, .decl k v :: es => indent d ++ k ++ c! ": " ++ v ++ c! ";\n" ++ layout d es

/-- What a reader of the stream sees: a header has been entered, the open headers now
being `path`, or a declaration. -/
inductive Obs where
  | enter (path : List Str)
  | decl (d : Decl)
deriving DecidableEq, Repr

/-- Read a stream of events with the stack of open headers (outermost first). `none`:
a closing brace without an open header. Returns what was seen and the final stack. -/
def readEvents : List Str → List Ev → Option (List Obs × List Str)
  | st, [] => some ([], st)
  | st, .opn h :: es =>
    match readEvents (st ++ [h]) es with
    | none => none
    | some (o, s) => some (.enter (st ++ [h]) :: o, s)
  | st, .cls :: es => if st = [] then none else readEvents st.dropLast es
  | st, .decl k v :: es =>
    match readEvents st es with
    | none => none
    | some (o, s) => some (.decl ⟨st, k, v⟩ :: o, s)

/-- The declarations seen. -/
def seenDecls (o : List Obs) : List Decl :=
  o.filterMap (fun | .decl d => some d | _ => none)

/-- The headers entered. -/
def entered (o : List Obs) : List (List Str) :=
  o.filterMap (fun | .enter p => some p | _ => none)

end Spec

/-! ## Reading the text character by character -/

namespace Spec

/-- Net nesting of braces, `none` if a `}` comes with nothing open. -/
def braces : Nat → Str → Option Nat
  | d, [] => some d
  | d, '{' :: s => braces (d + 1) s
  | 0, '}' :: _ => none
  | d + 1, '}' :: s => braces d s
  | d, _ :: s => braces d s

/-- The parts of a declaration text, split at the first colon. -/
def splitColon : Str → Option (Str × Str)
  | [] => none
  | ':' :: s => some ([], s)
  | c :: s => (splitColon s).map (fun (k, v) => (c :: k, v))

/-- A naive character-level reader of a style sheet with nested blocks: text up to
`{` is a header, text up to `;` is a declaration, `}` closes a header. `acc` is the
text since the last of these characters, `st` the open headers. -/
def readText : List Str → Str → Str → Option (List Decl × List Str)
  | st, acc, [] => if Str.trim acc = [] then some ([], st) else none
  | st, acc, c :: s =>
    if c = '{' then readText (st ++ [Str.trim acc]) [] s
    else if c = '}' then
      if Str.trim acc = [] ∧ st ≠ [] then readText st.dropLast [] s else none
    else if c = ';' then
      match splitColon acc with
      | none => none
      | some (k, v) =>
        match readText st [] s with
        | none => none
        | some (ds, st') => some (⟨st, Str.trim k, Str.trim v⟩ :: ds, st')
    else readText st (acc ++ [c]) s

mutual
/-- All texts that a piece of a sheet is made of. -/
def textsIn : RBC → List Str
  | .attr k v => k :: v
  | .rule c b => c ++ textsInAll b
  | .block c b => c.flatten ++ textsInAll b
/-- The same for several pieces. -/
def textsInAll : List RBC → List Str
  | [] => []
  | x :: xs => textsIn x ++ textsInAll xs
end

/-- All texts that a sheet is made of: conditions, selectors, keys and values. -/
def textsOf (s : Sheet) : List Str := textsInAll (s.map ScopeContent.toRBC)

/-- No structural characters and no surrounding white space. -/
def Clean (s : Str) : Prop :=
  (∀ c ∈ s, c ≠ '{' ∧ c ≠ '}' ∧ c ≠ ';') ∧ Str.trim s = s

instance (s : Str) : Decidable (Clean s) := by unfold Clean; infer_instance

end Spec
