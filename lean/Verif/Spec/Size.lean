import Verif.Spec.Css

/-!
# The size of a sheet

The characters of its texts, and one for each declaration, block, at-rule and selector.
-/

namespace Spec

mutual
/-- The size of a piece of a sheet. -/
def sizeIn : RBC → Nat
  | .attr k v => 1 + k.length + v.flatten.length
  | .rule c b => 1 + c.flatten.length + sizeInAll b
  | .block c b => 1 + (c.map (fun s => 1 + s.flatten.length)).sum + sizeInAll b
/-- The size of several pieces. -/
def sizeInAll : List RBC → Nat
  | [] => 0
  | x :: xs => sizeIn x + sizeInAll xs
end

/-- The size of a sheet. -/
def sizeOfSheet (s : Sheet) : Nat := sizeInAll (s.map ScopeContent.toRBC)

/-- How many lines of a stream are headers. -/
def headerLines (evs : List Ev) : Nat :=
  evs.countP (fun e => match e with | .opn _ => true | _ => false)

/-- A declaration, and below it `d` at-rules inside each other, each with a declaration. -/
def ladder : Nat → List RBC
  | 0 => [.attr (c! "a") [c! "b"]]
  | d + 1 => [.attr (c! "a") [c! "b"], .rule [c! "@media ", c! "x"] (ladder d)]

end Spec
