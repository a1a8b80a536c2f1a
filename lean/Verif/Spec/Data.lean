import Verif.Model.Storage

/-!
# What a serialized value says
-/

namespace Storage

mutual
/-- `Says w v`: the value `v` says what `w` says. Texts, truth values and names of variants
are the same, and so are the elements of sequences, in order. A struct says it by name or by
position. -/
inductive Says : Value → Value → Prop
  | bool (b : Bool) : Says (.bool b) (.bool b)
  | str (s : Str) : Says (.str s) (.str s)
  | seq {ws vs : List Value} : SaysAll ws vs → Says (.seq ws) (.seq vs)
  | variant (n : Str) {w v : Value} : Says w v → Says (.variant n w) (.variant n v)
  | named {gs fs : List (Str × Value)} : SaysFields gs fs → Says (.struct gs) (.struct fs)
  | placed {gs : List (Str × Value)} {vs : List Value} : SaysAll (gs.map Prod.snd) vs → Says (.struct gs) (.seq vs)
/-- One by one. -/
inductive SaysAll : List Value → List Value → Prop
  | nil : SaysAll [] []
  | cons {w v : Value} {ws vs : List Value} : Says w v → SaysAll ws vs → SaysAll (w :: ws) (v :: vs)
/-- By name: each field is there exactly once. The order does not matter, and there may be
other fields. -/
inductive SaysFields : List (Str × Value) → List (Str × Value) → Prop
  | nil (fs : List (Str × Value)) : SaysFields [] fs
  | cons {n : Str} {w v : Value} {gs fs : List (Str × Value)} :
      fs.filter (fun f => f.1 = n) = [(n, v)] → Says w v → SaysFields gs fs → SaysFields ((n, w) :: gs) fs
end

end Storage
