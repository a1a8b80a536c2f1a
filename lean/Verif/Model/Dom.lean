import Verif.Base

/-!
# The part of the DOM that the manager uses

Containers with an ordered list of children. This describes the browser, not the
code in `/repo`; it is part of the trusted base. Simplifications: containers are not
nested in each other, document order is the order of the list of containers, and a
container that is attached to the document is an element (so that
`Node::parent_element` of its children exists); containers that are not attached
(shadow roots, detached elements) are not seen by `Document::query_selector`.
-/

/-- A child of a container: a `<style data-style=id>` element with its text, or any
other node. -/
inductive Child where
  | style (id text : Str)
  | other (n : Nat)
deriving DecidableEq, Repr

/-- The `data-style` attribute. -/
def Child.styleId? : Child → Option Str
  | .style id _ => some id
  | .other _ => none

/-- Is it a style element? -/
def Child.isStyle : Child → Bool
  | .style _ _ => true
  | .other _ => false

/-- A node that style elements can be put into. -/
structure Container where
  attached : Bool
  children : List Child
deriving DecidableEq, Repr

/-- The page. -/
abbrev Dom := List Container

namespace Dom

/-- The children of all containers in the document, in document order. -/
def inDoc : Dom → List Child
  | [] => []
  | c :: cs => (if c.attached then c.children else []) ++ inDoc cs

/-- Remove the `n`-th node of `inDoc`. -/
def removeAt : Nat → Dom → Dom
  | _, [] => []
  | n, c :: cs =>
    if c.attached then
      if n < c.children.length then { c with children := c.children.eraseIdx n } :: cs
      else c :: removeAt (n - c.children.length) cs
    else c :: removeAt n cs

/-- The children of container `i`. -/
def childrenOf (d : Dom) (i : Nat) : List Child :=
  match d[i]? with
  | some c => c.children
  | none => []

/-- Replace the children of container `i`. -/
def setChildren (d : Dom) (i : Nat) (ch : List Child) : Dom :=
  d.modify i (fun c => { c with children := ch })

/-- A reference to a node: a container, or the `j`-th child of a container. -/
inductive NodeRef where
  | cont (i : Nat)
  | child (i j : Nat)
deriving DecidableEq, Repr

/-- `Node::parent_node`. -/
def NodeRef.parent : NodeRef → Option NodeRef
  | .cont _ => none
  | .child i _ => some (.cont i)

/-- `Node::append_child` on container `i`. -/
def appendChild (d : Dom) (i : Nat) (el : Child) : Dom :=
  d.setChildren i (d.childrenOf i ++ [el])

/-- `parent.insert_before(el, Some(ref))`: a `NotFoundError` unless `ref` is a child of
`parent` (DOM standard, "ensure pre-insert validity"). -/
def insertBefore (d : Dom) (parent : NodeRef) (el : Child) (ref : NodeRef) : Option Dom :=
  if ref.parent = some parent then
    match ref with
    | .child i j => some (d.setChildren i ((d.childrenOf i).take j ++ el :: (d.childrenOf i).drop j))
    | .cont _ => none
  else none

/-- `Node::first_child` of container `i`. -/
def firstChild (d : Dom) (i : Nat) : Option NodeRef :=
  match d.childrenOf i with
  | [] => none
  | _ :: _ => some (.child i 0)

end Dom

/-- First characters of a CSS identifier (no escapes). -/
def cssStart (c : Char) : Bool := c.isAlpha || c == '_' || 0x80 ≤ c.val.toNat

/-- Other characters of a CSS identifier (no escapes). -/
def cssChar (c : Char) : Bool := cssStart c || c.isDigit || c == '-'

/-- CSS identifiers written without escapes: what may stand unquoted after `=` in an
attribute selector and then means itself (CSS Syntax 3, §4.3.9; Selectors 4). -/
def cssIdent : Str → Bool
  | [] => false
  | '-' :: s =>
    (match s with
      | [] => false
      | c :: _ => cssStart c || c == '-') && s.all cssChar
  | c :: s => cssStart c && s.all cssChar
