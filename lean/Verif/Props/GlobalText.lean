import Verif.Proofs.GlobalText
import Verif.Props.Hydration
import Verif.Props.Browser

/-!
# Property theorems: the text of hydrated global styles

C34, continued.
-/

open Spec

namespace Manager

open Storage

/-- **C34**, exactly, for global styles: a browser reads the text of the hydrated style as the
text of the server if and only if no declaration of the sheet stands in a block. So the texts
differ as soon as one does, whatever its selector is. -/
theorem C34_exactly (env : Env) (d : Dom) (ops ops' : List Op) (s s1 s2 : St) (hs : s = run env ops (St.init d))
    (mh i l h : Nat) (m : Mgr) (src : Source) (ast : Sheet) (fault : Bool)
    (hi : s.mgrOf mh = some i) (hm : s.mgrs[i]? = some m) (hlog : m.log = some l) (hsrc : src.sheet? = some ast)
    (hload : ∀ mh data, Op.load mh data ∉ ops)
    (h1 : step env (.create mh .global src fault) s = (s1, .style h)) (id text : Str) (hc : s1.className h = some id)
    (htx : s1.styleText h = some text)
    (h2 : s2 = run env ops' s1) (out : List Entry)
    (hout : (∃ mh', s2.mgrOf mh' = some i ∧ (step env (.styleData mh') s2).2 = .data out) ∨
      (step env (.readData l) s2).2 = .data out)
    (stored received : List TEntry) (hst : stored.map TEntry.erase = out)
    (hrec : Storage.decode (Storage.encData stored) = some received)
    (env' : Env) (d' : Dom) (cops cops' : List Op) (t t1 t2 t3 : St) (ht : t = run env' cops (St.init d'))
    (hcops : ∀ ch kind src fault, Op.create ch kind src fault ∉ cops)
    (ch ch' j : Nat) (hj : t.mgrOf ch = some j)
    (ht1 : step env' (.load ch (received.map TEntry.erase)) t = (t1, .unit))
    (ht2 : t2 = run env' cops' t1)
    (hun : Along env' (fun t op => ¬ Unregisters op t j (Kind.global.key m.pref ast)) cops' t1)
    (hj2 : t2.mgrOf ch' = some j) (m' : Mgr) (hm' : t2.mgrs[j]? = some m')
    (src' : Source) (fault' : Bool) (hsrc' : src'.sheet? = some ast) (hpref : m'.pref = m.pref)
    (ht3 : t3 = (step env' (.create ch' .global src' fault') t2).1)
    (hid : CleanClass id) (hwh : WholeSheet ast) :
    ∃ h' text', (step env' (.create ch' .global src' fault') t2).2 = .style h' ∧ t3.styleText h' = some text' ∧
      (browserReads text' = browserReads text ↔ hasBlockDecl ast = false) ∧ (hasBlockDecl ast = true → text' ≠ text) := by
  obtain ⟨h', e1, e2, rfl⟩ := C34_global_partial env d ops ops' s s1 s2 hs mh i l h m src ast fault hi hm hlog hsrc hload h1 id
    text hc htx h2 out hout stored received hst hrec env' d' cops cops' t t1 t2 t3 ht hcops ch ch' j hj ht1 ht2 hun hj2 m' hm'
    src' fault' hsrc' hpref ht3
  have key : browserReads (ast.toStyleStr (some id)) = browserReads (ast.toStyleStr none) ↔ hasBlockDecl ast = false := by
    rw [C68_browser_reads ast (some id) (by simpa using hid) hwh, C68_browser_reads ast none (by simp) hwh,
      Option.some.injEq, GlobalTextP.decls_same hid]
  refine ⟨h', _, e1, e2, key, ?_⟩
  intro hb e
  rw [key.1 (by rw [e])] at hb
  cases hb

/-- Non-vacuity: the sheet of the demo server (see `C34_global_partial`) and its id. -/
example : CleanClass (c! "stylist-global-style-2") ∧ WholeSheet demoRed ∧ hasBlockDecl demoRed = true := by decide

set_option maxRecDepth 4000 in
/-- Non-vacuity, the other way: a sheet with an animation only. -/
example : let s : Sheet := [.rule [c! "@keyframes ", c! "x"] [.rule [c! "to"] [.attr (c! "top") [c! "0"]]]]
    WholeSheet s ∧ hasBlockDecl s = false ∧ Sheet.toStyleStr s (some (c! "k")) = Sheet.toStyleStr s none := by decide +kernel

end Manager
