import Verif.Proofs.Requests
import Verif.Props.Locks
import Verif.Props.Writer

/-!
# The pages of a server that answers many requests at once

C117. Each request is answered in a thread with its own manager, and its style data are read in any
thread. `keysAsked l calls` (`Spec/Requests`) are the styles that a thread got from the manager
that writes to the style data `l`, each once, in the order in which it got them, and is read off
from the calls of this thread alone.
-/

namespace Locks

open Manager

/-- **C117**, the styles of a page. Whatever the schedule of whatever other threads: if the data
`l` of a manager that thread `t` made are read, and `t` did not unregister styles or load data,
then the result has the styles that thread `t` got from its manager before, in the order in
which it got them first, each once, with the text of its css under its class. The numbers in the
classes are all different. Nothing of any other thread is in it. -/
theorem C117_page (env : Env) (d : Dom) (sched : List (Nat × Op)) (x : Sys) (hx : x = (Sys.init d).run env sched)
    (before after : List Done) (read : Done) (hdone : x.done = before ++ read :: after) (l : Nat) (es : List Entry)
    (hop : read.op = .readData l) (hout : read.out = .data es) (t : Nat)
    (hmade : ∃ e ∈ before, e.t = t ∧ e.MakesFor l) (hplain : ∀ e ∈ before, e.t = t → e.Plain) :
    let keys := keysAsked l (before.filter (fun e => e.t = t))
    ∃ ns : List Nat, ns.length = keys.length ∧ ns.Nodup ∧ (∀ n ∈ ns, n < x.st.ctr) ∧
      es = List.zipWith (entryNo env) keys ns := by
  intro keys
  have hJ := (J.init env d).run sched
  rw [← hx] at hJ
  obtain ⟨ts, calls, hs⟩ := hJ.sim
  obtain ⟨f, hf, rfl, hfm⟩ := hmade
  obtain ⟨i, m, hp, h1, h2, ⟨more, h3⟩, h4, h5⟩ := read_facts (c := abs x calls) hs.symm hdone hop hout hf hfm
  have h5 := h5 hplain
  obtain ⟨π, hπ, -, k, -, hrun, hlt, -⟩ := C67_sequential env d ts (abs x calls) hs.symm
  obtain ⟨num, hnum⟩ := numbered_run (env.reordered π) ((abs x calls).done.map Done.op) (Inv.init d)
    (numbered_init (env.reordered π) d)
  have htext := text_run (env.reordered π) ((abs x calls).done.map Done.op) (Inv.init d) (by simp [St.init])
  rw [hrun] at hnum htext
  have htake : hp = ({ (abs x calls).st with ctr := k } : St).heap.take hp.length := by
    show hp = ((abs x calls).st.heap).take hp.length
    rw [← h3]; simp
  obtain ⟨ns, a1, a2, a3, a4⟩ := entries_numbered (env := env) hnum (fun _ => rfl) hπ htext i hp.length
  rw [← htake] at a1 a4
  have hk : (createdBy i hp).map Content.key = keys := by
    refine Eq.trans ?_ h5
    rw [h4, List.map_map]; rfl
  refine ⟨ns, ?_, a2, ?_, ?_⟩
  · rw [a1, ← hk, List.length_map]
  · intro n hn
    obtain ⟨p, c, -, b1, b2, rfl⟩ := a3 n hn
    exact hlt _ (hnum.id p c b1 b2).1
  · rw [h4, a4, hk]

/-- Non-vacuity: the read of the data of thread 1 by thread 3 in `untangled`, after the read that
had to wait; thread 2 has created the same style in the meantime. -/
example : let x := (Sys.init []).run checkedServer untangled
    (x.done[7]?).map (fun e => (e.t, e.op)) = some (3, .readData 0) ∧
    ((x.done.take 7).filter (fun e => e.t = 1)).map Done.op =
      [ .renderStatic, .newMgr (c! "a") none true (some 0), .create 0 .scoped (.text (c! "color:red;")) false ] ∧
    keysAsked 0 ((x.done.take 7).filter (fun e => e.t = 1)) = [⟨false, c! "a", demoRed⟩] ∧
    (x.done[7]?).map Done.out = some (.data [entryNo checkedServer ⟨false, c! "a", demoRed⟩ 0]) := by decide +kernel

/-- **C117**, pages do not share classes. As long as the counter has not wrapped or, with the feature
`random`, the strings drawn are different, no class or id of the data of one manager is in the data of another. -/
theorem C117_apart (env : Env) (d : Dom) (sched : List (Nat × Op)) (x : Sys)
    (hx : x = (Sys.init d).run env sched) (hids : FreshIds env x.st.ctr)
    (before after before' after' : List Done) (read read' : Done) (hdone : x.done = before ++ read :: after)
    (hdone' : x.done = before' ++ read' :: after') (l l' : Nat) (hne : l ≠ l') (es es' : List Entry)
    (hop : read.op = .readData l) (hout : read.out = .data es) (hop' : read'.op = .readData l')
    (hout' : read'.out = .data es') (hmade : ∃ e ∈ before, e.MakesFor l) (hmade' : ∃ e ∈ before', e.MakesFor l') :
    ∀ a ∈ es, ∀ b ∈ es', a.id ≠ b.id := by
  have hJ := (J.init env d).run sched
  rw [← hx] at hJ
  obtain ⟨ts, calls, hs⟩ := hJ.sim
  obtain ⟨f, hf, hfm⟩ := hmade
  obtain ⟨f', hf', hfm'⟩ := hmade'
  obtain ⟨i, m, hp, h1, h2, ⟨more, h3⟩, h4, -⟩ := read_facts (c := abs x calls) hs.symm hdone hop hout hf hfm
  obtain ⟨j, m', hp', h1', h2', ⟨more', h3'⟩, h4', -⟩ := read_facts (c := abs x calls) hs.symm hdone' hop' hout' hf' hfm'
  intro a ha b hb hid
  rw [h4] at ha
  rw [h4'] at hb
  obtain ⟨c, hc, rfl⟩ := List.mem_map.1 ha
  obtain ⟨c', hc', rfl⟩ := List.mem_map.1 hb
  obtain ⟨hc, hci⟩ := List.mem_filter.1 hc
  obtain ⟨hc', hci'⟩ := List.mem_filter.1 hc'
  simp only [decide_eq_true_eq] at hci hci'
  have hc : c ∈ (abs x calls).st.heap := by rw [← h3]; exact List.mem_append_left _ hc
  have hc' : c' ∈ (abs x calls).st.heap := by rw [← h3']; exact List.mem_append_left _ hc'
  obtain ⟨p, hp⟩ := List.getElem?_of_mem hc
  obtain ⟨q, hq⟩ := List.getElem?_of_mem hc'
  have := C67_distinct_classes env d ts (abs x calls) hs.symm hids p q c c' hp hq hci.2 hci'.2 hid
  subst this
  rw [hp] at hq
  cases hq
  have hij : i = j := hci.1.symm.trans hci'.1
  subst hij
  rw [h1] at h1'
  cases h1'
  rw [h2] at h2'
  exact hne (Option.some.inj h2')

/-- Both threads create the style, mixed, and then thread 3 reads the data of both. -/
def served : List (Nat × Op) := startBoth ++ more 2 2 ++ more 1 3 ++ more 2 12 ++ more 1 13 ++ more 2 2 ++ [(3, .readData 0), (3, .readData 1)]

/-- Non-vacuity: the classes in both data. -/
example : let x := (Sys.init []).run checkedServer served
    x.done.map (fun e => match e.out with | .data es => es.map Entry.id | _ => []) =
      [[], [], [], [], [], [], [c! "a-style-1"], [c! "b-style-0"]] ∧
    (x.done.drop 6).map Done.op = [.readData 0, .readData 1] ∧ x.st.ctr = 2 ∧
    checkedServer.entropy 5 = counterEntropy 5 := by decide +kernel

/-- **C117**, what a browser finds. It reads the markup that is written from the data as the styles
that thread `t` got, each with its class and its text, in this order, and nothing else, if no
quotation mark is in the prefixes and the class numbers, and the escaped texts have no end tag. -/
theorem C117_browser (env : Env) (d : Dom) (sched : List (Nat × Op)) (x : Sys) (hx : x = (Sys.init d).run env sched)
    (before after : List Done) (read : Done) (hdone : x.done = before ++ read :: after) (l : Nat) (es : List Entry)
    (hop : read.op = .readData l) (hout : read.out = .data es) (t : Nat)
    (hmade : ∃ e ∈ before, e.t = t ∧ e.MakesFor l) (hplain : ∀ e ∈ before, e.t = t → e.Plain)
    (esc : Str → Str) (hesc : ∀ s, Html.endTags (esc s) = 0) (hent : ∀ n, '"' ∉ env.entropy n)
    (hpref : ∀ k ∈ keysAsked l (before.filter (fun e => e.t = t)), '"' ∉ k.pref) :
    let keys := keysAsked l (before.filter (fun e => e.t = t))
    ∃ ns : List Nat, ns.length = keys.length ∧ ns.Nodup ∧
      Html.readCut keys.length (writeStaticMarkup esc es) =
        List.zipWith (fun k n => ((entryNo env k n).id, esc (entryNo env k n).text)) keys ns := by
  intro keys
  obtain ⟨ns, h1, h2, -, h3⟩ := C117_page env d sched x hx before after read hdone l es hop hout t hmade hplain
  refine ⟨ns, h1, h2, ?_⟩
  have hlen : es.length = keys.length := by rw [h3, List.length_zipWith, h1]; exact Nat.min_self _
  have hid : ∀ e ∈ es, '"' ∉ e.id := by
    intro e he
    rw [h3] at he
    obtain ⟨p, hp⟩ := List.getElem?_of_mem he
    rw [List.getElem?_zipWith] at hp
    split at hp
    · rename_i k n hk hn
      cases hp
      have hkp := hpref k (List.mem_of_getElem? hk)
      have hnp := hent n
      simp only [entryNo, makeId]
      split <;> simp only [List.mem_append, not_or] <;> exact ⟨⟨hkp, by decide⟩, hnp⟩
    · cases hp
  rw [← hlen, C115_whole_page esc es hesc hid, h3, List.map_zipWith]

/-- Non-vacuity: the page of thread 1. -/
example : let x := (Sys.init []).run checkedServer untangled
    (x.done[7]?).map (fun e => match e.out with
      | .data es => Html.readCut 1 (writeStaticMarkup id es)
      | _ => []) = some [(c! "a-style-0", c! ".a-style-0 {\n    color: red;\n}\n")] ∧
    '"' ∉ checkedServer.entropy 0 := by decide +kernel

/-- The hypothesis is needed: after unregistering a style, asking for it again makes another entry
with the same css. -/
theorem C117_limit_unregister :
    let red : List (Nat × Op) := (1, .create 0 .scoped (.sheet demoRed) false) :: more 1 4
    let x := (Sys.init []).run serverEnv ([(1, .renderStatic), (1, .newMgr (c! "a") none true (some 0))] ++ red ++
      [(1, .unregister 0)] ++ red ++ [(1, .readData 0)])
    keysAsked 0 x.done = [⟨false, c! "a", demoRed⟩] ∧
    (x.done.getLast?).map (fun e => match e.out with | .data es => es.map Entry.key | _ => []) =
      some [⟨false, c! "a", demoRed⟩, ⟨false, c! "a", demoRed⟩] := by decide +kernel

end Locks
