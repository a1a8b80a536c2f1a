import Verif.Model.Manager

/-!
# Words used in the properties of managers
-/

namespace Manager

/-- A style is alive while a `Style` / `GlobalStyle` value or a registry refers to it. -/
def St.Alive (s : St) (p : Nat) : Prop :=
  some p ∈ s.handles ∨ ∃ m ∈ s.mgrs, ∃ k, (k, p) ∈ m.reg

/-- The style elements with `data-style=id` among some nodes. -/
def withId (id : Str) (cs : List Child) : List Child := cs.filter (fun c => c.styleId? = some id)

/-- A property of every step of a history: the state before and the operation. -/
def Along (env : Env) (P : St → Op → Prop) : List Op → St → Prop
  | [], _ => True
  | op :: ops, s => P s op ∧ Along env P ops (step env op s).1

/-- The operation is `unregister` on a style of manager `i` with key `k` (kind, prefix
and sheet). -/
def Unregisters (op : Op) (s : St) (i : Nat) (k : Key) : Prop :=
  ∃ h p c, op = .unregister h ∧ s.contentOf h = some p ∧ s.heap[p]? = some c ∧ c.mgr = i ∧ c.key = k

/-- Container `i` is in the document. -/
def Attached (d : Dom) (i : Nat) : Prop := ∃ ct, d[i]? = some ct ∧ ct.attached = true

/-- A style is for the whole page, not for a class. -/
def Kind.forPage : Kind → Bool
  | .global => true
  | _ => false

/-- The prefix of a style: its own one, or that of the manager. -/
def Kind.prefixOr (mgrPref : Str) : Kind → Str
  | .withPrefix pref => pref
  | _ => mgrPref

/-- The style was created (not loaded) by a manager without a static writer that puts its
elements into container `i`. -/
def Mounts (s : St) (c : Content) (i : Nat) : Prop :=
  c.origin = .created ∧ ∃ m, s.mgrs[c.mgr]? = some m ∧ m.log = none ∧ m.container = some i

/-- The style was loaded, or its manager has a static writer. -/
def Adopts (s : St) (c : Content) : Prop :=
  c.origin = .hydrated ∨ ∃ m l, s.mgrs[c.mgr]? = some m ∧ m.log = some l

/-- The style element of a style. -/
def Content.element (c : Content) : Child := .style c.id c.text

/-- The manager an operation works on. -/
def Op.manager (s : St) : Op → Option Nat
  | .cloneMgr mh | .dropMgr mh | .create mh _ _ _ | .load mh _ | .styleData mh => s.mgrOf mh
  | .clone h | .drop h | .unregister h => (s.contentOf h).bind (fun p => (s.heap[p]?).map Content.mgr)
  | .renderStatic | .newMgr _ _ _ _ | .readData _ | .page _ _ => none

/-- The contents created by manager `i`, in order of creation. -/
def createdBy (i : Nat) (heap : List Content) : List Content :=
  heap.filter (fun c => c.mgr = i ∧ c.origin = .created)

/-- A letter, `_` or a character outside of ASCII. -/
def IdentStart (c : Char) : Prop := ('a' ≤ c ∧ c ≤ 'z') ∨ ('A' ≤ c ∧ c ≤ 'Z') ∨ c = '_' ∨ '\u0080' ≤ c

/-- One of these, a digit or `-`. -/
def IdentRest (c : Char) : Prop := IdentStart c ∨ ('0' ≤ c ∧ c ≤ '9') ∨ c = '-'

/-- Identifiers in css, written without escapes (CSS Syntax 3). -/
def Identifier (s : Str) : Prop :=
  ∃ head rest, s = head ++ rest ∧ (∀ c ∈ rest, IdentRest c) ∧
    ((∃ c, IdentStart c ∧ (head = [c] ∨ head = ['-', c])) ∨ head = ['-', '-'])

/-- The entry recorded for a style. -/
def Content.entry (c : Content) : Entry := { key := c.key, id := c.id, text := c.text }

/-- The results of all operations of a history. -/
def outs (env : Env) : List Op → St → List Out
  | [], _ => []
  | op :: ops, s => (step env op s).2 :: outs env ops (step env op s).1

/-- The class under which a manager has a style with key `k`, if it has one. -/
def St.registeredId (s : St) (i : Nat) (k : Key) : Option Str :=
  (s.mgrs[i]?).bind (fun m => (regGet m.reg k).bind (fun p => (s.heap[p]?).map Content.id))

/-- The class that style data gives to a key, given the classes known before: a known one
stays, otherwise the first entry counts. -/
def firstId (known : Key → Option Str) (data : List Entry) (k : Key) : Option Str :=
  (known k).or ((data.find? (fun e => e.key = k)).map Entry.id)

end Manager
