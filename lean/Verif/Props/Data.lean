import Verif.Proofs.Storage

/-!
# Reading style data

C102.
-/

namespace Storage

/-! ## C102: style data are read as written or not at all -/

/-- What loading looks at: the key of a style and its class. -/
def TEntry.style (e : TEntry) : Manager.Key × Str := (e.key.erase, e.id)

/-- **C102.** Any value whatsoever that claims to be style data, from this version of the
code or not. It is read as a list of styles with their classes if and only if it says these
styles and classes, in this order: nothing is skipped, guessed or changed. -/
theorem C102_reads_iff (v : Value) (styles : List (Manager.Key × Str)) :
    (∃ data, decode v = some data ∧ data.map TEntry.style = styles) ↔
      ∃ data, Says (encData data) v ∧ data.map TEntry.style = styles := by
  constructor
  · rintro ⟨data, h1, h2⟩
    exact ⟨data, says_data h1, h2⟩
  · rintro ⟨data, h1, h2⟩
    refine ⟨_, dec_data h1, ?_⟩
    rw [← h2, List.map_map]
    exact List.map_congr_left (fun e _ => by simp [TEntry.style, eraseKey_own])

/-- **C102**, rejection: everything else is an error. -/
theorem C102_rejects_iff (v : Value) : decode v = none ↔ ∀ data, ¬ Says (encData data) v := by
  constructor
  · intro h data hs
    rw [dec_data hs] at h
    cases h
  · intro h
    cases hd : decode v with
    | none => rfl
    | some data => exact absurd (says_data hd) (h data)

/-- **C102**, no ambiguity: a value says at most one list of styles and classes. -/
theorem C102_unambiguous (v : Value) (data data' : List TEntry) (h : Says (encData data) v) (h' : Says (encData data') v) :
    data.map TEntry.style = data'.map TEntry.style := by
  have key : ∀ {d : List TEntry}, Says (encData d) v → ∃ d0, decode v = some d0 ∧ d0.map TEntry.style = d.map TEntry.style :=
    fun hs => (C102_reads_iff v _).2 ⟨_, hs, rfl⟩
  obtain ⟨d1, h1, h2⟩ := key h
  obtain ⟨d2, h3, h4⟩ := key h'
  rw [h1] at h3
  cases h3
  rw [← h2, h4]

/-- `color: red;` under the prefix `p`. -/
def demoEntry : TEntry :=
  { key := { isGlobal := false, pref := ⟨.borrowed, c! "p"⟩
             ast := ⟨.owned, [.block ⟨.owned, []⟩ .owned [.attr ⟨.owned, c! "color"⟩ ⟨.owned, [⟨⟨.borrowed, c! "red"⟩⟩]⟩]]⟩ }
    id := c! "p-style-0", text := c! "x" }

/-- The same with the fields in another order, a field that nobody knows and the declaration
by position. -/
def demoValue : Value :=
  .seq [.struct [(c! "id", .str (c! "p-style-0")), (c! "version", .bool true),
    (c! "key", .struct [(c! "ast", .seq [.variant (c! "Block") (.struct [
        (c! "content", .seq [.variant (c! "StyleAttr") (.seq [.str (c! "color"), .seq [.struct [(c! "inner", .str (c! "red"))]]])]),
        (c! "condition", .seq [])])]),
      (c! "prefix", .str (c! "p")), (c! "is_global", .bool false)])]]

set_option maxRecDepth 16000 in
/-- Non-vacuity: it is read. -/
example : Says (encData [demoEntry]) demoValue ∧ ∃ data, decode demoValue = some data ∧
    data.map TEntry.style = [demoEntry.style] := by
  have h : ∃ data, decode demoValue = some data ∧ data.map TEntry.style = [demoEntry.style] :=
    ⟨_, by with_unfolding_all rfl, by with_unfolding_all rfl⟩
  refine ⟨?_, h⟩
  have : ∃ data, decode demoValue = some data ∧ encData data = encData [demoEntry] :=
    ⟨_, by with_unfolding_all rfl, by with_unfolding_all rfl⟩
  obtain ⟨data, h1, h2⟩ := this
  exact h2 ▸ says_data h1

/-- Non-vacuity: values that are rejected. A repeated field, a missing field, an unknown
variant in the last of two styles. -/
example : decode (.seq [.struct [(c! "id", .str (c! "a")), (c! "id", .str (c! "a")), (c! "key", encKey demoEntry.key)]]) = none ∧
    decode (.seq [.struct [(c! "key", encKey demoEntry.key)]]) = none ∧
    decode (.seq [encEntry demoEntry, .struct [(c! "id", .str (c! "a")),
      (c! "key", .struct [(c! "ast", .seq [.variant (c! "Import") (.seq [])]), (c! "prefix", .str (c! "p")),
        (c! "is_global", .bool false)])]]) = none := by
  refine ⟨by with_unfolding_all rfl, by with_unfolding_all rfl, by with_unfolding_all rfl⟩

end Storage
