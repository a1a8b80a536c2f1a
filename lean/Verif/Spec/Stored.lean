import Verif.Spec.Macro
import Verif.Model.Storage

/-!
# What of a macro sheet is allocated

A string, a list or a boxed rule of the sheet that a macro makes is owned exactly if an
expression of the user occurs in it; everything else is borrowed from constants.
-/

namespace Spec

open Output Storage

/-- Owned exactly if `P`. -/
def OwnedIff (l : Loc) (P : Prop) : Prop := l = .owned ↔ P

/-- Fragments: the list, and whether there is an owned string among them. -/
def StoredFrags (fs : List OFrag) (v : Cow (List Frag)) : Prop :=
  OwnedIff v.loc (∃ f ∈ fs, FragDyn f) ∧ ((∃ f ∈ v.val, f.inner.loc = .owned) ↔ ∃ f ∈ fs, FragDyn f)

/-- Selectors, one by one. -/
def StoredEach : List (List OFrag) → List Sel → Prop
  | [], [] => True
  | s :: ss, v :: vs => StoredFrags s v.fragments ∧ StoredEach ss vs
  | _, _ => False

/-- Selectors. -/
def StoredSels (c : List (List OFrag)) (v : Cow (List Sel)) : Prop :=
  OwnedIff v.loc (∃ s ∈ c, ∃ f ∈ s, FragDyn f) ∧ StoredEach c v.val

mutual
/-- Contents of a block or rule. -/
def StoredRBC : ORBC → TRBC → Prop
  | .rule c b, .rule bow c' l b' =>
    OwnedIff bow (DynRBC (.rule c b)) ∧ StoredFrags c c' ∧ OwnedIff l (DynRBCs b) ∧ StoredRBCs b b'
  | .block c b, .block bow c' l b' =>
    OwnedIff bow (DynRBC (.block c b)) ∧ StoredSels c c' ∧ OwnedIff l (DynRBCs b) ∧ StoredRBCs b b'
  | .attr k v, .attr k' v' => OwnedIff k'.loc (KeyDyn k) ∧ StoredFrags v v'
  | _, _ => False
/-- Of a list. -/
def StoredRBCs : List ORBC → List TRBC → Prop
  | [], [] => True
  | x :: xs, y :: ys => StoredRBC x y ∧ StoredRBCs xs ys
  | _, _ => False
end

/-- One item of a sheet. -/
def StoredScope : OScope → TScope → Prop
  | .rule c b, .rule c' l b' => StoredFrags c c' ∧ OwnedIff l (DynRBCs b) ∧ StoredRBCs b b'
  | .block c b, .block c' l b' => StoredSels c c' ∧ OwnedIff l (DynRBCs b) ∧ StoredRBCs b b'
  | _, _ => False

/-- The items of a sheet. -/
def StoredScopes : List OScope → List TScope → Prop
  | [], [] => True
  | x :: xs, y :: ys => StoredScope x y ∧ StoredScopes xs ys
  | _, _ => False

/-- A sheet. -/
def StoredSheet (s : OSheet) (t : TSheet) : Prop := OwnedIff t.loc (Dyn s) ∧ StoredScopes s t.val

end Spec
