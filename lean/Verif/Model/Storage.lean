import Verif.Model.Manager

/-!
# Storage of syntax trees, and serialization of style data

Models what the rest of the model erases: the `Cow` and `Bow` pointers in the syntax tree
(`packages/stylist-core/src/ast/*.rs`, `packages/stylist-core/src/bow.rs`), the derived
`PartialEq`, `Hash`, `Serialize` and `Deserialize` of the tree, of `StyleKey`
(`packages/stylist/src/manager/key.rs`) and of `StyleData`
(`packages/stylist/src/manager/mod.rs` 307-345).
-/

namespace Storage

/-- `Cow::Borrowed` / `Bow::Borrowed`, or `Cow::Owned` / `Bow::Boxed`. -/
inductive Loc where
  | borrowed
  | owned
deriving DecidableEq, Repr

/-- `Cow<'static, T>`; `val` is its `Deref`. -/
structure Cow (α : Type) where
  loc : Loc
  val : α
deriving DecidableEq, Repr

/-- `StringFragment` (`ast/str_frag.rs` 8-11). -/
structure Frag where
  inner : Cow Str
deriving DecidableEq, Repr

/-- `Selector` (`ast/selector.rs` 13-16). -/
structure Sel where
  fragments : Cow (List Frag)
deriving DecidableEq, Repr

/-- `RuleBlockContent` (`ast/rule_block_content.rs` 7-12), payloads inlined; `bow` is the
`Bow` around the payload, `loc` the `Cow` around the contents. -/
inductive TRBC where
  | attr (key : Cow Str) (value : Cow (List Frag))
  | rule (bow : Loc) (condition : Cow (List Frag)) (loc : Loc) (content : List TRBC)
  | block (bow : Loc) (condition : Cow (List Sel)) (loc : Loc) (content : List TRBC)

/-- `ScopeContent` (`ast/scope_content.rs` 25-29), payloads inlined. -/
inductive TScope where
  | block (condition : Cow (List Sel)) (loc : Loc) (content : List TRBC)
  | rule (condition : Cow (List Frag)) (loc : Loc) (content : List TRBC)

/-- `Sheet(Arc<Cow<'static, [ScopeContent]>>)` (`ast/sheet.rs` 11-12); the `Arc` is
erased. -/
abbrev TSheet := Cow (List TScope)

/-- `StyleKey` (`manager/key.rs` 14-19). -/
structure TKey where
  isGlobal : Bool
  pref : Cow Str
  ast : TSheet

/-- `StyleDataContent` (`manager/mod.rs` 307-313). -/
structure TEntry where
  key : TKey
  id : Str
  text : Str

/-! ## Forgetting the storage -/

/-- The text of fragments. -/
def frags (v : Cow (List Frag)) : List Str := v.val.map (fun f => f.inner.val)

/-- The fragments of selectors. -/
def sels (v : Cow (List Sel)) : List Selector := v.val.map (fun s => frags s.fragments)

mutual
/-- The tree that the rest of the model uses. -/
def TRBC.erase : TRBC → RBC
  | .attr k v => .attr k.val (frags v)
  | .rule _ c _ b => .rule (frags c) (TRBC.erases b)
  | .block _ c _ b => .block (sels c) (TRBC.erases b)
/-- Of a list. -/
def TRBC.erases : List TRBC → List RBC
  | [] => []
  | x :: xs => x.erase :: TRBC.erases xs
end

/-- The tree that the rest of the model uses. -/
def TScope.erase : TScope → ScopeContent
  | .block c _ b => .block (sels c) (TRBC.erases b)
  | .rule c _ b => .rule (frags c) (TRBC.erases b)

/-- The sheet that the rest of the model uses. -/
def eraseSheet (s : TSheet) : Sheet := s.val.map TScope.erase

/-- The key that the rest of the model uses. -/
def TKey.erase (k : TKey) : Manager.Key := { isGlobal := k.isGlobal, pref := k.pref.val, ast := eraseSheet k.ast }

/-- The entry that the rest of the model uses. -/
def TEntry.erase (e : TEntry) : Manager.Entry := { key := e.key.erase, id := e.id, text := e.text }

/-! ## Equality -/

/-- Slice equality: `[T]: PartialEq`. -/
def eqSlice {α : Type} (eq : α → α → Bool) : List α → List α → Bool
  | [], [] => true
  | x :: xs, y :: ys => eq x y && eqSlice eq xs ys
  | _, _ => false

/-- `Cow: PartialEq` and `Bow: PartialEq` (`bow.rs` 67-74): compare what they refer to. -/
def eqCow {α : Type} (eq : α → α → Bool) (a b : Cow α) : Bool := eq a.val b.val

/-- `str: PartialEq`. -/
def eqStr (a b : Str) : Bool := decide (a = b)

/-- Derived `PartialEq for StringFragment` (`ast/str_frag.rs` 8). -/
def eqFrag (a b : Frag) : Bool := eqCow eqStr a.inner b.inner

/-- Derived `PartialEq for Selector` (`ast/selector.rs` 13). -/
def eqSel (a b : Sel) : Bool := eqCow (eqSlice eqFrag) a.fragments b.fragments

mutual
/-- Derived `PartialEq for RuleBlockContent`, `Rule`, `Block`, `StyleAttribute`
(`ast/rule_block_content.rs` 7, `ast/rule.rs` 20, `ast/block.rs` 16,
`ast/style_attr.rs` 11). -/
def eqRBC : TRBC → TRBC → Bool
  | .attr k v, .attr k' v' => eqCow eqStr k k' && eqCow (eqSlice eqFrag) v v'
  | .rule _ c _ b, .rule _ c' _ b' => eqCow (eqSlice eqFrag) c c' && eqRBCs b b'
  | .block _ c _ b, .block _ c' _ b' => eqCow (eqSlice eqSel) c c' && eqRBCs b b'
  | _, _ => false
/-- Slice equality. -/
def eqRBCs : List TRBC → List TRBC → Bool
  | [], [] => true
  | x :: xs, y :: ys => eqRBC x y && eqRBCs xs ys
  | _, _ => false
end

/-- Derived `PartialEq for ScopeContent` (`ast/scope_content.rs` 25). -/
def eqScope : TScope → TScope → Bool
  | .block c _ b, .block c' _ b' => eqCow (eqSlice eqSel) c c' && eqRBCs b b'
  | .rule c _ b, .rule c' _ b' => eqCow (eqSlice eqFrag) c c' && eqRBCs b b'
  | _, _ => false

/-- Derived `PartialEq for Sheet` (`ast/sheet.rs` 11). -/
def eqSheet (a b : TSheet) : Bool := eqCow (eqSlice eqScope) a b

/-- Derived `PartialEq for StyleKey` (`manager/key.rs` 14). -/
def eqKey (a b : TKey) : Bool := (a.isGlobal == b.isGlobal) && eqCow eqStr a.pref b.pref && eqSheet a.ast b.ast

/-! ## Hashing -/

/-- What is fed to a `Hasher`: a string, a length, a discriminant, a `bool`. -/
inductive Tok where
  | str (s : Str)
  | len (n : Nat)
  | disc (n : Nat)
  | bool (b : Bool)
deriving DecidableEq, Repr

/-- Slices feed their length and their elements. -/
def hashSlice {α : Type} (h : α → List Tok) (l : List α) : List Tok := .len l.length :: l.flatMap h

/-- `Cow: Hash` and `Bow: Hash` (`bow.rs` 78-82). -/
def hashCow {α : Type} (h : α → List Tok) (a : Cow α) : List Tok := h a.val

/-- `str: Hash`. -/
def hashStr (s : Str) : List Tok := [.str s]

/-- Derived. -/
def hashFrag (f : Frag) : List Tok := hashCow hashStr f.inner

/-- Derived. -/
def hashSel (s : Sel) : List Tok := hashCow (hashSlice hashFrag) s.fragments

mutual
/-- Derived `Hash` of `RuleBlockContent` and its payloads: the discriminant, then the
fields in order. -/
def hashRBC : TRBC → List Tok
  | .attr k v => .disc 0 :: hashCow hashStr k ++ hashCow (hashSlice hashFrag) v
  | .rule _ c _ b => .disc 1 :: hashCow (hashSlice hashFrag) c ++ .len b.length :: hashRBCs b
  | .block _ c _ b => .disc 2 :: hashCow (hashSlice hashSel) c ++ .len b.length :: hashRBCs b
/-- Of a list. -/
def hashRBCs : List TRBC → List Tok
  | [] => []
  | x :: xs => hashRBC x ++ hashRBCs xs
end

/-- Derived. -/
def hashScope : TScope → List Tok
  | .block c _ b => .disc 0 :: hashCow (hashSlice hashSel) c ++ .len b.length :: hashRBCs b
  | .rule c _ b => .disc 1 :: hashCow (hashSlice hashFrag) c ++ .len b.length :: hashRBCs b

/-- Derived `Hash for StyleKey`. -/
def hashKey (k : TKey) : List Tok :=
  .bool k.isGlobal :: hashCow hashStr k.pref ++ hashCow (hashSlice hashScope) k.ast

/-- `HashMap::get` on association lists: an entry is found if its hash agrees and it
compares equal. `hasher` is any hash function. -/
def hashGet (hasher : List Tok → Nat) (reg : List (TKey × Nat)) (k : TKey) : Option Nat :=
  (reg.find? (fun e => (hasher (hashKey e.1) == hasher (hashKey k)) && eqKey e.1 k)).map Prod.snd

/-! ## Serialization -/

/-- The part of serde's data model that is used. -/
inductive Value where
  | bool (b : Bool)
  | str (s : Str)
  | seq (vs : List Value)
  | struct (fields : List (Str × Value))
  | variant (name : Str) (v : Value)

/-- `Cow`, `Bow` and `Arc` serialize what they refer to (`bow.rs` 15-25, `ast/sheet.rs`
14-21). -/
def encStr (s : Cow Str) : Value := .str s.val

/-- Derived `Serialize for StringFragment`. -/
def encFrag (f : Frag) : Value := .struct [(c! "inner", encStr f.inner)]

/-- Slices are sequences. -/
def encFrags (v : Cow (List Frag)) : Value := .seq (v.val.map encFrag)

/-- Derived `Serialize for Selector`. -/
def encSel (s : Sel) : Value := .struct [(c! "fragments", encFrags s.fragments)]

/-- Slices are sequences. -/
def encSels (v : Cow (List Sel)) : Value := .seq (v.val.map encSel)

mutual
/-- Derived `Serialize` of `RuleBlockContent` and its payloads. -/
def encRBC : TRBC → Value
  | .attr k v => .variant (c! "StyleAttr") (.struct [(c! "key", encStr k), (c! "value", encFrags v)])
  | .rule _ c _ b => .variant (c! "Rule") (.struct [(c! "condition", encFrags c), (c! "content", .seq (encRBCs b))])
  | .block _ c _ b => .variant (c! "Block") (.struct [(c! "condition", encSels c), (c! "content", .seq (encRBCs b))])
/-- Of a list. -/
def encRBCs : List TRBC → List Value
  | [] => []
  | x :: xs => encRBC x :: encRBCs xs
end

/-- Derived `Serialize for ScopeContent`. -/
def encScope : TScope → Value
  | .block c _ b => .variant (c! "Block") (.struct [(c! "condition", encSels c), (c! "content", .seq (encRBCs b))])
  | .rule c _ b => .variant (c! "Rule") (.struct [(c! "condition", encFrags c), (c! "content", .seq (encRBCs b))])

/-- `Serialize for Sheet` (`ast/sheet.rs` 14-21). -/
def encSheet (s : TSheet) : Value := .seq (s.val.map encScope)

/-- Derived `Serialize for StyleKey` (`manager/key.rs` 14). -/
def encKey (k : TKey) : Value :=
  .struct [(c! "is_global", .bool k.isGlobal), (c! "prefix", encStr k.pref), (c! "ast", encSheet k.ast)]

/-- Derived `Serialize for StyleDataContent` (`manager/mod.rs` 307): `style_str` is
skipped, `StyleId` is a newtype of `String` (`manager/key.rs` 25-26). -/
def encEntry (e : TEntry) : Value := .struct [(c! "key", encKey e.key), (c! "id", .str e.id)]

/-- `Serialize for StyleData` (`manager/mod.rs` 329-336). -/
def encData (d : List TEntry) : Value := .seq (d.map encEntry)

/-! ## Deserialization -/

/-- A required field of a derived `Deserialize`: other fields are ignored, a missing or a
repeated field is an error. -/
def field (fs : List (Str × Value)) (name : Str) : Option Value :=
  match fs.filter (fun f => f.1 = name) with
  | [f] => some f.2
  | _ => none

/-- Elements of a sequence; the first error ends it. -/
def optAll {α β : Type} (f : α → Option β) : List α → Option (List β)
  | [] => some []
  | x :: xs =>
    match f x, optAll f xs with
    | some y, some ys => some (y :: ys)
    | _, _ => none

/-- The fields of a struct as a derived `Deserialize` finds them: by name, or by position if
the struct comes as a sequence. Too many elements are an error of the data format. -/
def record (names : List Str) : Value → Option (List Value)
  | .struct fs => optAll (field fs) names
  | .seq vs => if vs.length = names.length then some vs else none
  | _ => none

/-- `Deserialize for Cow<'static, str>`: always owned. -/
def decStr : Value → Option (Cow Str)
  | .str s => some ⟨.owned, s⟩
  | _ => none

/-- Derived `Deserialize for StringFragment`. -/
def decFrag (v : Value) : Option Frag :=
  match record [c! "inner"] v with
  | some [x] => (decStr x).map Frag.mk
  | _ => none

/-- `Deserialize for Cow<'static, [T]>`: always owned. -/
def decFrags : Value → Option (Cow (List Frag))
  | .seq vs => (optAll decFrag vs).map (Cow.mk .owned)
  | _ => none

/-- Derived `Deserialize for Selector`. -/
def decSel (v : Value) : Option Sel :=
  match record [c! "fragments"] v with
  | some [x] => (decFrags x).map Sel.mk
  | _ => none

/-- `Deserialize for Cow<'static, [T]>`. -/
def decSels : Value → Option (Cow (List Sel))
  | .seq vs => (optAll decSel vs).map (Cow.mk .owned)
  | _ => none

/-- Derived `Deserialize` of `RuleBlockContent` and its payloads; a `Bow` becomes `Boxed`
(`bow.rs` 27-37). The number bounds the nesting, see `decode`. -/
def decRBC : Nat → Value → Option TRBC
  | 0, _ => none
  | n + 1, .variant name v =>
    if name = c! "StyleAttr" then
      match record [c! "key", c! "value"] v with
      | some [k, x] =>
        match decStr k, decFrags x with
        | some k, some x => some (.attr k x)
        | _, _ => none
      | _ => none
    else if name = c! "Rule" then
      match record [c! "condition", c! "content"] v with
      | some [c, .seq vs] =>
        match decFrags c, optAll (decRBC n) vs with
        | some c, some b => some (.rule .owned c .owned b)
        | _, _ => none
      | _ => none
    else if name = c! "Block" then
      match record [c! "condition", c! "content"] v with
      | some [c, .seq vs] =>
        match decSels c, optAll (decRBC n) vs with
        | some c, some b => some (.block .owned c .owned b)
        | _, _ => none
      | _ => none
    else none
  | _ + 1, _ => none

/-- Derived `Deserialize for ScopeContent`. -/
def decScope (n : Nat) : Value → Option TScope
  | .variant name v =>
    if name = c! "Block" then
      match record [c! "condition", c! "content"] v with
      | some [c, .seq vs] =>
        match decSels c, optAll (decRBC n) vs with
        | some c, some b => some (.block c .owned b)
        | _, _ => none
      | _ => none
    else if name = c! "Rule" then
      match record [c! "condition", c! "content"] v with
      | some [c, .seq vs] =>
        match decFrags c, optAll (decRBC n) vs with
        | some c, some b => some (.rule c .owned b)
        | _, _ => none
      | _ => none
    else none
  | _ => none

/-- `Deserialize for Sheet` (`ast/sheet.rs` 23-33). -/
def decSheet (n : Nat) : Value → Option TSheet
  | .seq vs => (optAll (decScope n) vs).map (Cow.mk .owned)
  | _ => none

/-- Derived `Deserialize for StyleKey`. -/
def decKey (n : Nat) (v : Value) : Option TKey :=
  match record [c! "is_global", c! "prefix", c! "ast"] v with
  | some [.bool g, p, a] =>
    match decStr p, decSheet n a with
    | some p, some a => some ⟨g, p, a⟩
    | _, _ => none
  | _ => none

/-- Derived `Deserialize for StyleDataContent`: the skipped text becomes empty. -/
def decEntry (n : Nat) (v : Value) : Option TEntry :=
  match record [c! "key", c! "id"] v with
  | some [k, .str id] => (decKey n k).map (fun k => ⟨k, id, []⟩)
  | _ => none

mutual
/-- The nesting of a value. -/
def Value.depth : Value → Nat
  | .bool _ => 0
  | .str _ => 0
  | .seq vs => Value.depths vs + 1
  | .struct fs => Value.depthf fs + 1
  | .variant _ v => v.depth + 1
/-- Of a list. -/
def Value.depths : List Value → Nat
  | [] => 0
  | v :: vs => max v.depth (Value.depths vs)
/-- Of fields. -/
def Value.depthf : List (Str × Value) → Nat
  | [] => 0
  | (_, v) :: fs => max v.depth (Value.depthf fs)
end

/-- `Deserialize for StyleData` (`manager/mod.rs` 338-345). -/
def decode (v : Value) : Option (List TEntry) :=
  match v with
  | .seq vs => optAll (decEntry v.depth) vs
  | _ => none

end Storage
