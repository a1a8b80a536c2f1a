import Verif.Model.Manager

/-!
# Random ids

`get_rand_str` of `stylist/src/utils.rs`, which gives the entropy of ids with feature
`random` (one of the default features).

The generator of `fastrand` is not modelled: a run of the program meets some sequence of
results of `fastrand::u8(..62)`, and nothing is said here about which.
-/

namespace Manager

/-- The characters of `fastrand::alphanumeric` (crate `fastrand` 2, `Rng::alphanumeric`:
`CHARS = b"ABCDEFGHIJKLMNOPQRSTUVWXYZabcdefghijklmnopqrstuvwxyz0123456789"`). -/
def alphanumerics : List Char := c! "ABCDEFGHIJKLMNOPQRSTUVWXYZabcdefghijklmnopqrstuvwxyz0123456789"

/-- `fastrand::alphanumeric` (crate `fastrand` 2), for the result `r` of `fastrand::u8(..62)`:
the character at that place. -/
def alphanumeric (r : Fin 62) : Char := alphanumerics.get (r.cast (by decide))

/-- `repeat_with(fastrand::alphanumeric).take(n).collect()` (`utils.rs` 5): the string, and
what is left of the sequence of results. If the sequence ends, so does the string; the
theorems are about sequences that are long enough. -/
def takeAlphanumeric : Nat → List (Fin 62) → Str × List (Fin 62)
  | 0, rng => ([], rng)
  | _ + 1, [] => ([], [])
  | n + 1, r :: rng =>
    let (s, rng) := takeAlphanumeric n rng
    (alphanumeric r :: s, rng)

/-- `get_rand_str` (`utils.rs` 2-6). -/
def getRandStr (rng : List (Fin 62)) : Str × List (Fin 62) := takeAlphanumeric 8 rng

/-- The result of call `k` of `get_entropy` with feature `random` (`utils.rs` 19-26), counted
from 0, in a process that meets the sequence `rng`. -/
def randomEntropy (rng : List (Fin 62)) : Nat → Str
  | 0 => (getRandStr rng).1
  | k + 1 => randomEntropy (getRandStr rng).2 k

end Manager
