import Verif.Model.Manager

/-!
# Who owns what

The references that exist in a state, counted by looking for their owners.
-/

namespace Spec.Counts

open Manager

/-- The number of the first `n` numbers for which `f` holds. -/
def howMany (n : Nat) (f : Nat → Bool) : Nat := ((List.range n).filter f).length

/-- The entries of registries for style `p`. -/
def entries (s : St) (p : Nat) : Nat := (s.mgrs.map (fun g => (g.reg.map Prod.snd).count p)).sum

/-- The owners of style `p`: `Style` values and entries of registries. -/
def owners (s : St) (p : Nat) : Nat := s.handles.count (some p) + entries s p

/-- The `StyleManager` values of manager `i`. -/
def clones (s : St) (i : Nat) : Nat := s.mgrHandles.count (some i)

/-- Style `p` exists and belongs to manager `i`. -/
def livesIn (s : St) (i p : Nat) : Bool :=
  owners s p ≠ 0 && (s.heap[p]?).map Content.mgr = some i

/-- Manager `i` exists and writes to style data `l`. -/
def writesTo (s : St) (l i : Nat) : Bool :=
  clones s i ≠ 0 && (s.mgrs[i]?).bind Mgr.log = some l

/-- The writer, if it has not been given away, and the reader, if it has not been used, of
style data `l`. -/
def ends (s : St) (l : Nat) : Nat :=
  match s.logs[l]? with
  | none => 0
  | some log => (if log.writerTaken then 0 else 1) + (if log.readerTaken then 0 else 1)

end Spec.Counts
