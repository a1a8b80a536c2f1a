import Verif.Model.Manager

/-!
# Ids that differ

What theorems about whole applications assume of `get_entropy`, for either setting of the
feature `random`.
-/

namespace Manager

/-- The results of the first `n` calls of `get_entropy` make different ids: without the
feature `random` the counter has not wrapped; with it the strings, which consist of letters
and digits, are all different (how often this is so: C118). -/
def FreshIds (env : Env) (n : Nat) : Prop :=
  (env.entropy = counterEntropy ∧ n ≤ 2 ^ 64) ∨
  ((∀ a < n, ∀ x ∈ env.entropy a, x.isAlphanum = true) ∧
    ∀ a b, a < n → b < n → env.entropy a = env.entropy b → a = b)

end Manager
