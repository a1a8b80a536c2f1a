import Verif.Proofs.Compact
import Verif.Props.Data
import Verif.Props.Hydration

/-!
# Style data in a compact format

C113. `limit` is the number of bytes that the reader can address: 2^64, or 2^32 in WebAssembly.
-/

namespace Compact

open Storage

/-! ## C113: style data survive a format without names -/

theorem style_own (data : List TEntry) : (data.map ownEntry).map TEntry.style = data.map TEntry.style := by
  simp [List.map_map, Function.comp_def, TEntry.style, ownEntry, eraseKey_own]

/-- **C113**, what is read. Any bytes, sent by this code or not. They are read as a list of
styles with their classes if and only if they begin with what is written for these styles and
classes. So truncated and damaged data are an error or are other style data, written in full;
nothing is guessed. -/
theorem C113_reads_iff (limit : Nat) (hl : limit ≤ 2 ^ 64) (b : Bytes) (hb : b.length < limit)
    (styles : List (Manager.Key × Str)) :
    (∃ data, read limit b = some data ∧ data.map TEntry.style = styles) ↔
      ∃ data rest, b = write data ++ rest ∧ data.map TEntry.style = styles := by
  constructor
  · rintro ⟨data, h1, h2⟩
    obtain ⟨rest, h3⟩ := read_only h1
    exact ⟨data, rest, h3, h2⟩
  · rintro ⟨data, rest, rfl, h2⟩
    rw [List.length_append] at hb
    refine ⟨_, read_write hl data (by omega) rest, ?_⟩
    rw [style_own, h2]

/-- **C113**, both ways. Style data that fit into the memory of the client are read as they
were written, without the texts, also if other bytes follow. It is the same as through a
format with names, so what is proved of loading (C33, C36, C58, C63) holds. -/
theorem C113_roundtrip (limit : Nat) (hl : limit ≤ 2 ^ 64) (data : List TEntry) (hd : (write data).length < limit)
    (rest : Bytes) :
    (∃ data', read limit (write data ++ rest) = some data' ∧
      data'.map TEntry.erase = (data.map TEntry.erase).map (fun e => { e with text := [] })) ∧
    read limit (write data ++ rest) = decode (encData data) := by
  have h := read_write hl data hd rest
  refine ⟨⟨_, h, ?_⟩, ?_⟩
  · simp [List.map_map, Function.comp_def, TEntry.erase, ownEntry, eraseKey_own]
  · rw [h, decode_enc]; rfl

/-- **C113**, loading: the same as loading the original. -/
theorem C113_load_same (limit : Nat) (hl : limit ≤ 2 ^ 64) (env : Manager.Env) (mh : Nat) (data data' : List TEntry)
    (hd : (write data).length < limit) (s : Manager.St) (h : read limit (write data) = some data') :
    Manager.step env (.load mh (data'.map TEntry.erase)) s = Manager.step env (.load mh (data.map TEntry.erase)) s := by
  have := (C113_roundtrip limit hl data hd []).2
  rw [List.append_nil] at this
  exact Manager.C36_load_same env mh data data' s (by rw [← this, h])

/-- **C113**, truncated data are always an error. -/
theorem C113_truncated (limit : Nat) (hl : limit ≤ 2 ^ 64) (data : List TEntry) (hd : (write data).length < limit) (n : Nat)
    (hn : n < (write data).length) : read limit ((write data).take n) = none := by
  cases h : read limit ((write data).take n) with
  | none => rfl
  | some data' =>
    obtain ⟨rest, h1⟩ := read_only h
    have h2 : write data = write data' ++ (rest ++ (write data).drop n) := by
      rw [← List.append_assoc, ← h1, List.take_append_drop]
    have hlen := congrArg List.length h2
    simp only [List.length_append, List.length_drop] at hlen
    have h3 := getSeq_write hl data hd (write data).length (Nat.le_refl _) []
    have h4 := getSeq_write hl data' (by omega) (write data).length (by omega) (rest ++ (write data).drop n)
    rw [List.append_nil] at h3
    rw [← h2, h3] at h4
    have h5 := congrArg (fun x => x.map fun y => y.2.length) h4
    simp at h5
    omega

/-- **C113**, what is written: the same bytes exactly for the same styles and classes in the
same order, wherever the parts of the syntax trees are stored and whatever the texts. -/
theorem C113_written_iff (data data' : List TEntry) (hd : (write data).length < 2 ^ 64) :
    write data = write data' ↔ data.map TEntry.style = data'.map TEntry.style := by
  constructor
  · intro h
    have h1 := read_write (Nat.le_refl _) data hd []
    have h2 := read_write (Nat.le_refl _) data' (by rw [← h]; exact hd) []
    rw [← h, h1] at h2
    have h3 := congrArg (List.map TEntry.style) (Option.some.inj h2)
    rw [style_own, style_own] at h3
    exact h3
  · intro h
    rw [write_eq, write_eq]
    exact congrArg _ h

/-- An entry with a selector, an at-rule, text that is not ASCII and parts that are borrowed. -/
def sentEntry : TEntry :=
  { key := { isGlobal := true, pref := ⟨.borrowed, c! "p"⟩
             ast := ⟨.borrowed, [.block ⟨.owned, [⟨⟨.borrowed, [⟨⟨.owned, c! "é"⟩⟩]⟩⟩]⟩ .owned
               [.rule .borrowed ⟨.owned, [⟨⟨.owned, c! "@"⟩⟩]⟩ .owned [], .attr ⟨.owned, c! "k"⟩ ⟨.owned, []⟩]]⟩ }
    id := c! "i", text := c! "the text" }

set_option maxRecDepth 16000 in
/-- Non-vacuity: what is written for it, and the demo entry of C102. -/
example : write [sentEntry] =
    [1, 0, 0, 0, 0, 0, 0, 0,  1,  1, 0, 0, 0, 0, 0, 0, 0, 112,  1, 0, 0, 0, 0, 0, 0, 0,
      0, 0, 0, 0,  1, 0, 0, 0, 0, 0, 0, 0,  1, 0, 0, 0, 0, 0, 0, 0,  2, 0, 0, 0, 0, 0, 0, 0, 195, 169,
      2, 0, 0, 0, 0, 0, 0, 0,
      1, 0, 0, 0,  1, 0, 0, 0, 0, 0, 0, 0,  1, 0, 0, 0, 0, 0, 0, 0, 64,  0, 0, 0, 0, 0, 0, 0, 0,
      0, 0, 0, 0,  1, 0, 0, 0, 0, 0, 0, 0, 107,  0, 0, 0, 0, 0, 0, 0, 0,
      1, 0, 0, 0, 0, 0, 0, 0, 105] ∧
    (write [sentEntry, demoEntry]).length = 214 := by decide +kernel

/-- Non-vacuity: it is read, also by a client with 32 bits. -/
example : ∃ data, read (2 ^ 32) (write [sentEntry, demoEntry]) = some data ∧
    data.map TEntry.style = [sentEntry.style, demoEntry.style] :=
  (C113_reads_iff _ (by decide) _ (by decide +kernel) _).2 ⟨_, [], (List.append_nil _).symm, rfl⟩

/-- **C113**, the limit: there is no check sum. A class with one letter changed is read as
another class. -/
theorem C113_limit_changed : ∃ (data data' : List TEntry) (n : Nat) (x : UInt8),
    (write data).set n x = write data' ∧ data.map TEntry.style ≠ data'.map TEntry.style ∧
      read (2 ^ 32) ((write data).set n x) = some (data'.map fun e => ⟨ownKey e.key, e.id, []⟩) := by
  refine ⟨[sentEntry], [{ sentEntry with id := c! "j" }], 122, 106, by decide +kernel, by decide +kernel, ?_⟩
  rw [show (write [sentEntry]).set 122 106 = write [{ sentEntry with id := c! "j" }] ++ [] by decide +kernel]
  exact read_write (by decide) _ (by decide +kernel) []

end Compact
