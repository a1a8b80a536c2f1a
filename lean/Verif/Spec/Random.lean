import Verif.Model.Random

/-!
# Random ids: what is counted

All sequences of results of the generator of a given length, and the ids of a state.
-/

namespace Manager

/-- All sequences of `n` numbers below 62. -/
def sequences : Nat → List (List (Fin 62))
  | 0 => [[]]
  | n + 1 => (List.finRange 62).flatMap (fun r => (sequences n).map (r :: ·))

/-- How many of the sequences of length `n` satisfy `p`. -/
def howMany (n : Nat) (p : List (Fin 62) → Bool) : Nat := (sequences n).countP p

/-- `m (m − 1) ⋯ (m − n + 1)`: the number of ways to draw `n` different ones out of `m`, one
after the other. -/
def falling (m : Nat) : Nat → Nat
  | 0 => 1
  | n + 1 => falling m n * (m - n)

/-- The strings of the first `n` calls of `get_entropy`. -/
def names (rng : List (Fin 62)) (n : Nat) : List Str := (List.range n).map (randomEntropy rng)

/-- The environment with random ids, whose generator gives `rng`. -/
def Env.withRandom (env : Env) (rng : List (Fin 62)) : Env := { env with entropy := randomEntropy rng }

/-- The ids of the styles that have been created, one for each. -/
def createdIds (s : St) : List Str := (s.heap.filter (fun c => c.origin = .created)).map Content.id

/-- Whether a call creates a style (or finds that it exists). -/
def Op.isCreate : Op → Bool
  | .create _ _ _ _ => true
  | _ => false

/-- Whether two different styles (kind, prefix or sheet) have the same class. -/
def clash (s : St) : Bool := s.heap.any (fun c => s.heap.any (fun c' => c.id = c'.id ∧ c.key ≠ c'.key))

end Manager
