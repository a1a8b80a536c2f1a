import Verif.Model.Storage

/-!
# Style data in a compact format

`ManagerProvider` hands style data from the server to the client with `use_transitive_state!`
(`packages/stylist/src/yew/provider.rs` 47-53), for which yew uses bincode. This format writes
neither names nor types, so what is read depends on the order of the fields and variants in
the types of `packages/stylist-core/src/ast/*.rs`, `packages/stylist/src/manager/key.rs` and
`packages/stylist/src/manager/mod.rs` 307-345. Bincode is modelled with the options that
`bincode::serialize` and `bincode::deserialize` have: numbers of fixed size, the lowest byte
first; bytes that are left over are ignored. The base64 around it is not modelled.
-/

namespace Compact

open Storage

/-- What is sent. -/
abbrev Bytes := List UInt8

/-! ## Writing -/

/-- A number of `k` bytes. -/
def le : Nat → Nat → Bytes
  | 0, _ => []
  | k + 1, n => UInt8.ofNat n :: le k (n / 256)

/-- `bool`. -/
def putBool (b : Bool) : Bytes := [if b then 1 else 0]

/-- The bytes of a `str`. -/
def utf8 (s : Str) : Bytes := s.flatMap String.utf8EncodeChar

/-- `str`: the number of bytes, a `u64`, and the bytes. -/
def putStr (s : Str) : Bytes := le 8 (utf8 s).length ++ utf8 s

/-- A sequence: the number of elements, a `u64`, and the elements. -/
def putSeq {α : Type} (put : α → Bytes) (l : List α) : Bytes := le 8 l.length ++ l.flatMap put

/-- Derived `Serialize for StringFragment` (`ast/str_frag.rs` 8-11). -/
def putFrag (f : Frag) : Bytes := putStr f.inner.val

/-- Fragments (`ast/rule.rs` 20-31, `ast/style_attr.rs` 11-17). -/
def putFrags (v : Cow (List Frag)) : Bytes := putSeq putFrag v.val

/-- Derived `Serialize for Selector` (`ast/selector.rs` 13-16). -/
def putSel (s : Sel) : Bytes := putFrags s.fragments

/-- Selectors (`ast/block.rs` 16-23). -/
def putSels (v : Cow (List Sel)) : Bytes := putSeq putSel v.val

mutual
/-- Derived `Serialize` of `RuleBlockContent` (`ast/rule_block_content.rs` 7-12) and its
payloads: the number of the variant, a `u32`, and the fields in order. `Bow` and `Cow` write
what they refer to (`bow.rs` 15-25). -/
def putRBC : TRBC → Bytes
  | .attr k v => le 4 0 ++ (putStr k.val ++ putFrags v)
  | .rule _ c _ b => le 4 1 ++ (putFrags c ++ (le 8 b.length ++ putRBCs b))
  | .block _ c _ b => le 4 2 ++ (putSels c ++ (le 8 b.length ++ putRBCs b))
/-- Of a list. -/
def putRBCs : List TRBC → Bytes
  | [] => []
  | x :: xs => putRBC x ++ putRBCs xs
end

/-- Derived `Serialize for ScopeContent` (`ast/scope_content.rs` 25-29). -/
def putScope : TScope → Bytes
  | .block c _ b => le 4 0 ++ (putSels c ++ (le 8 b.length ++ putRBCs b))
  | .rule c _ b => le 4 1 ++ (putFrags c ++ (le 8 b.length ++ putRBCs b))

/-- `Serialize for Sheet` (`ast/sheet.rs` 14-21). -/
def putSheet (s : TSheet) : Bytes := putSeq putScope s.val

/-- Derived `Serialize for StyleKey` (`manager/key.rs` 14-19). -/
def putKey (k : TKey) : Bytes := putBool k.isGlobal ++ (putStr k.pref.val ++ putSheet k.ast)

/-- Derived `Serialize for StyleDataContent` (`manager/mod.rs` 307-313): the text is skipped. -/
def putEntry (e : TEntry) : Bytes := putKey e.key ++ putStr e.id

/-- `Serialize for StyleData` (`manager/mod.rs` 329-336). -/
def write (data : List TEntry) : Bytes := putSeq putEntry data

/-! ## Reading -/

/-- A reader gives a value and the bytes after it, or fails. -/
abbrev Reader (α : Type) := Bytes → Option (α × Bytes)

/-- The next `k` bytes. -/
def take (k : Nat) : Reader Bytes := fun b => if k ≤ b.length then some (b.take k, b.drop k) else none

/-- The number that some bytes stand for. -/
def ofLe : Bytes → Nat
  | [] => 0
  | x :: xs => x.toNat + 256 * ofLe xs

/-- A number of `k` bytes. -/
def getNum (k : Nat) : Reader Nat := fun b =>
  match take k b with
  | some (x, b) => some (ofLe x, b)
  | none => none

/-- A length: a `u64` that must be a `usize`, that is less than `limit` (2^64, or 2^32 in
WebAssembly). -/
def getLen (limit : Nat) : Reader Nat := fun b =>
  match getNum 8 b with
  | some (n, b) => if n < limit then some (n, b) else none
  | none => none

/-- `bool`: 0 or 1. -/
def getBool : Reader Bool
  | [] => none
  | x :: b => if x = 0 then some (false, b) else if x = 1 then some (true, b) else none

/-- `String`: an error if it is not UTF-8. -/
def getStr (limit : Nat) : Reader Str := fun b =>
  match getLen limit b with
  | none => none
  | some (n, b) =>
    match take n b with
    | none => none
    | some (x, b) =>
      match x.toByteArray.utf8Decode? with
      | none => none
      | some s => some (s.toList, b)

/-- So many elements. -/
def getMany {α : Type} (get : Reader α) : Nat → Reader (List α)
  | 0, b => some ([], b)
  | n + 1, b =>
    match get b with
    | none => none
    | some (x, b) =>
      match getMany get n b with
      | none => none
      | some (xs, b) => some (x :: xs, b)

/-- A sequence. -/
def getSeq {α : Type} (limit : Nat) (get : Reader α) : Reader (List α) := fun b =>
  match getLen limit b with
  | none => none
  | some (n, b) => getMany get n b

/-- One reader after the other. -/
def both {α β : Type} (f : Reader α) (g : Reader β) : Reader (α × β) := fun b =>
  match f b with
  | none => none
  | some (x, b) =>
    match g b with
    | none => none
    | some (y, b) => some ((x, y), b)

/-- What a reader gives, changed. -/
def mapR {α β : Type} (f : α → β) (r : Reader α) : Reader β := fun b => (r b).map fun x => (f x.1, x.2)

/-- Derived `Deserialize for StringFragment`. -/
def getFrag (limit : Nat) : Reader Frag := mapR (fun s => ⟨⟨.owned, s⟩⟩) (getStr limit)

/-- `Deserialize for Cow<'static, [T]>`: always owned. -/
def getFrags (limit : Nat) : Reader (Cow (List Frag)) := mapR (Cow.mk .owned) (getSeq limit (getFrag limit))

/-- Derived `Deserialize for Selector`. -/
def getSel (limit : Nat) : Reader Sel := mapR Sel.mk (getFrags limit)

/-- `Deserialize for Cow<'static, [T]>`. -/
def getSels (limit : Nat) : Reader (Cow (List Sel)) := mapR (Cow.mk .owned) (getSeq limit (getSel limit))

/-- Derived `Deserialize` of `RuleBlockContent` and its payloads: the number of the variant
says what follows, any other number is an error. A `Bow` becomes `Boxed` (`bow.rs` 27-37). The
number bounds the nesting; `read` takes the number of bytes, which is always enough. -/
def getRBC (limit : Nat) : Nat → Reader TRBC
  | 0, _ => none
  | n + 1, b =>
    match getNum 4 b with
    | some (0, b) => mapR (fun x => .attr ⟨.owned, x.1⟩ x.2) (both (getStr limit) (getFrags limit)) b
    | some (1, b) =>
      mapR (fun x => .rule .owned x.1 .owned x.2) (both (getFrags limit) (getSeq limit (getRBC limit n))) b
    | some (2, b) =>
      mapR (fun x => .block .owned x.1 .owned x.2) (both (getSels limit) (getSeq limit (getRBC limit n))) b
    | _ => none

/-- Derived `Deserialize for ScopeContent`. -/
def getScope (limit n : Nat) : Reader TScope := fun b =>
  match getNum 4 b with
  | some (0, b) => mapR (fun x => .block x.1 .owned x.2) (both (getSels limit) (getSeq limit (getRBC limit n))) b
  | some (1, b) => mapR (fun x => .rule x.1 .owned x.2) (both (getFrags limit) (getSeq limit (getRBC limit n))) b
  | _ => none

/-- `Deserialize for Sheet` (`ast/sheet.rs` 23-33). -/
def getSheet (limit n : Nat) : Reader TSheet := mapR (Cow.mk .owned) (getSeq limit (getScope limit n))

/-- Derived `Deserialize for StyleKey`. -/
def getKey (limit n : Nat) : Reader TKey :=
  mapR (fun x => ⟨x.1, ⟨.owned, x.2.1⟩, x.2.2⟩) (both getBool (both (getStr limit) (getSheet limit n)))

/-- Derived `Deserialize for StyleDataContent`: the skipped text becomes empty. -/
def getEntry (limit n : Nat) : Reader TEntry :=
  mapR (fun x => ⟨x.1, x.2, []⟩) (both (getKey limit n) (getStr limit))

/-- `Deserialize for StyleData` (`manager/mod.rs` 338-345). -/
def read (limit : Nat) (b : Bytes) : Option (List TEntry) :=
  (getSeq limit (getEntry limit b.length) b).map Prod.fst

end Compact
