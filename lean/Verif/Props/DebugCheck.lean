import Verif.Proofs.DebugCheck
import Verif.Props.Checked
import Verif.Props.Rendered

/-!
# The check of debug builds

C108. With the feature `debug_parser` in a build with debug assertions, the text of every style that
is created is parsed again, and a text that cannot be parsed is a panic.
-/

namespace Manager

open Spec
open Inline (NameChars)

theorem class_clean {env : Env} (hent : ∀ n, NameChars (env.entropy n)) {key : Key} (hp : NameChars key.pref) (n : Nat) :
    ∀ c ∈ (if key.isGlobal then none else some (makeId key (env.entropy n)) : Option Str), CleanClass c := by
  intro c hc
  split at hc
  · cases hc
  · rename_i hg
    cases hc
    have hdash : isIdentChar '-' = true ∧ Str.isWhitespace '-' = false := by decide
    simp only [makeId, hg]
    refine ⟨by simp, fun x hx => ?_⟩
    simp only [Bool.false_eq_true, if_false, List.mem_append, List.mem_singleton] at hx
    rcases hx with (hx | hx) | hx
    · exact hp x hx
    · rw [hx]; exact hdash
    · exact hent _ x hx

/-- **C108.** In a debug build with the feature, in every reachable state: creating a style, scoped,
global or with a prefix, panics exactly if there is an animation in it, at any depth, in which
nothing is declared. For sheets that are clean but for such animations, styles that were not loaded
with style data, and prefixes with characters of identifiers. -/
theorem C108_panics (env : Env) (hdbg : env.debugParser = true) (hent : ∀ n, NameChars (env.entropy n))
    (d : Dom) (ops : List Op) (s : St) (hs : s = run env ops (St.init d))
    (mh i : Nat) (m : Mgr) (hi : s.mgrOf mh = some i) (hm : s.mgrs[i]? = some m)
    (kind : Kind) (hpref : NameChars m.pref) (hkind : ∀ p, kind = .withPrefix p → NameChars p)
    (src : Source) (ast : Sheet) (hsrc : src.sheet? = some ast) (hast : SoundSheet ast) (fault : Bool)
    (hload : ∀ mh data e, Op.load mh data ∈ ops → e ∈ data → e.key ≠ kind.key m.pref ast) :
    (step env (.create mh kind src fault) s).2 = .panic ↔ ∃ x ∈ ast, EmptyAnimation x.toRBC := by
  have hinv : Inv s := hs ▸ inv_run env ops (Inv.init d)
  have hk : (kind.key m.pref ast).ast = ast := by cases kind <;> rfl
  have hp : NameChars (kind.key m.pref ast).pref := by
    cases kind with
    | withPrefix p => exact hkind p rfl
    | _ => exact hpref
  have htext : ∀ n, Css.parse (ast.toStyleStr
      (if (kind.key m.pref ast).isGlobal then none else some (makeId (kind.key m.pref ast) (env.entropy n)))) = none ↔
        ∃ x ∈ ast, EmptyAnimation x.toRBC := fun n => C16_exactly ast _ hast (class_clean hent hp n)
  have hnew : (newContent env s i (kind.key m.pref ast)).text = ast.toStyleStr
      (if (kind.key m.pref ast).isGlobal then none else some (makeId (kind.key m.pref ast) (env.entropy s.ctr))) := by
    simp only [newContent, hk]
  have ht := step_tr env hinv (.create mh kind src fault)
  generalize hr : step env (.create mh kind src fault) s = r at ht ⊢
  obtain ⟨s', out⟩ := r
  simp only at ht ⊢
  cases ht with
  | invalid =>
    exfalso
    simp only [step, create, hi, hsrc, hm] at hr
    split at hr <;> simp at hr
  | createSyntax _ _ css _ _ _ _ h2 =>
    simp only [Source.sheet?] at hsrc
    rw [h2] at hsrc; cases hsrc
  | createHit _ _ _ _ _ i' m' ast' p h1 h2 h3 h4 =>
    rw [hi] at h1; cases h1
    rw [hm] at h2; cases h2
    rw [hsrc] at h3; cases h3
    simp only [reduceCtorEq, false_iff]
    intro he
    obtain ⟨c, c1, c2, -⟩ := hinv.reg i m hm _ (regGet_mem h4)
    simp only at c1 c2
    have hc : c.origin = .created := by
      cases ho : c.origin with
      | created => rfl
      | hydrated =>
        exfalso
        rcases hydrated_run env ops (Inv.init d) c (by rw [← hs]; exact List.mem_of_getElem? c1) ho with h | ⟨mh', data, e, e1, e2, e3⟩
        · simp [St.init] at h
        · refine hload mh' data e e1 e2 ?_
          rw [← c2, e3]; rfl
    obtain ⟨h5, n, h6⟩ := DebugCheckP.made_run env ops (Inv.init d) (by simp [St.init]) c
      (by rw [← hs]; exact List.mem_of_getElem? c1) hc
    refine h5 hdbg ?_
    rw [h6, c2, hk]
    exact (htext n).2 he
  | createDebug _ _ _ _ _ i' m' ast' h1 h2 h3 h4 h5 h6 =>
    rw [hi] at h1; cases h1
    rw [hm] at h2; cases h2
    rw [hsrc] at h3; cases h3
    rw [hnew] at h6
    exact iff_of_true rfl ((htext s.ctr).1 h6)
  | createStatic _ _ _ _ _ i' m' ast' l log c h1 h2 h3 h4 h5 h6 =>
    rw [hi] at h1; cases h1
    rw [hm] at h2; cases h2
    rw [hsrc] at h3; cases h3
    rw [h5, hnew] at h6
    exact iff_of_false (by simp) (fun he => h6 hdbg ((htext s.ctr).2 he))
  | createFail _ _ _ _ _ i' m' ast' c h1 h2 h3 h4 h5 h6 =>
    rw [hi] at h1; cases h1
    rw [hm] at h2; cases h2
    rw [hsrc] at h3; cases h3
    rw [h5, hnew] at h6
    exact iff_of_false (by simp) (fun he => h6 hdbg ((htext s.ctr).2 he))
  | createMount _ _ _ _ _ i' m' ast' c d' h1 h2 h3 h4 h5 h6 =>
    rw [hi] at h1; cases h1
    rw [hm] at h2; cases h2
    rw [hsrc] at h3; cases h3
    rw [h5, hnew] at h6
    exact iff_of_false (by simp) (fun he => h6 hdbg ((htext s.ctr).2 he))

/-- **C108**, from the css: css in any layout, in which no selector is white space only and frames
are plain. -/
theorem C108_written (env : Env) (hdbg : env.debugParser = true) (hent : ∀ n, NameChars (env.entropy n))
    (d : Dom) (ops : List Op) (s : St) (hs : s = run env ops (St.init d))
    (mh i : Nat) (m : Mgr) (hi : s.mgrOf mh = some i) (hm : s.mgrs[i]? = some m)
    (kind : Kind) (hpref : NameChars m.pref) (hkind : ∀ p, kind = .withPrefix p → NameChars p)
    (css : Str) (ast : Sheet) (hcss : Layout css ast) (hast : PlainSheet ast) (fault : Bool)
    (hload : ∀ mh data e, Op.load mh data ∈ ops → e ∈ data → e.key ≠ kind.key m.pref ast) :
    (step env (.create mh kind (.text css) fault) s).2 = .panic ↔ ∃ x ∈ ast, EmptyAnimation x.toRBC :=
  C108_panics env hdbg hent d ops s hs mh i m hi hm kind hpref hkind (.text css) ast (C59_layout_partial css ast hcss)
    (HollowP.sound_layout hcss hast) fault hload

/-- **C108.** The check changes nothing else: a panic leaves the page, the styles, the managers and
the style data as they were (only the next id is another one), and a style that passes is created
as it is without the check. -/
theorem C108_else_same (env : Env) (d : Dom) (ops : List Op) (s : St) (hs : s = run env ops (St.init d))
    (mh : Nat) (kind : Kind) (src : Source) (fault : Bool) :
    if (step env (.create mh kind src fault) s).2 = .panic then
      (step env (.create mh kind src fault) s).1 = { s with ctr := s.ctr + 1 }
    else step { env with debugParser := false } (.create mh kind src fault) s = step env (.create mh kind src fault) s := by
  have hinv : Inv s := hs ▸ inv_run env ops (Inv.init d)
  split
  · rename_i h
    have ht := step_tr env hinv (.create mh kind src fault)
    rw [h] at ht
    generalize (step env (.create mh kind src fault) s).1 = s' at ht
    cases ht with
    | createDebug => rfl
  · rename_i h
    exact DebugCheckP.create_same env mh kind src fault s h

/-- The counter gives characters of names. -/
theorem counter_names (n : Nat) : NameChars (counterEntropy n) := by
  intro c hc
  have hc0 := List.mem_append.1 hc
  clear hc
  rcases hc0 with hc | hc
  · revert c; decide
  · have := decimal_digits _ c hc
    simp only [Char.isDigit, Bool.and_eq_true, decide_eq_true_eq] at this
    have h1 : 48 ≤ c.val.toNat := UInt32.le_iff_toNat_le.1 this.1
    have h2 : c.val.toNat ≤ 57 := UInt32.le_iff_toNat_le.1 this.2
    constructor
    · have e : ('0' ≤ c && c ≤ '9') = true := by
        simp only [Bool.and_eq_true, decide_eq_true_eq]; exact this
      simp [isIdentChar, e]
    · simp only [Str.isWhitespace, Bool.or_eq_false_iff, Bool.and_eq_false_iff, decide_eq_false_iff_not, beq_eq_false_iff_ne]
      omega

/-- A debug build with the feature. -/
def checkedEnv : Env := { demoEnv with debugParser := true }

/-- The state after `demoOps` in it. -/
def checkedState : St := run checkedEnv demoOps (St.init demoPage)

/-- Non-vacuity: ids, prefixes and managers as required; `hollowText` and `hollowSheet` are so by the
examples for C16. Creating the style panics, and another one is created. -/
example : (∀ n, NameChars (checkedEnv.entropy n)) ∧ checkedState.mgrOf 0 = some 0 ∧
    (∃ m, checkedState.mgrs[0]? = some m ∧ NameChars m.pref) ∧
    (step checkedEnv (.create 0 .scoped (.text hollowText) false) checkedState).2 = .panic ∧
    (step checkedEnv (.create 0 .global (.text hollowText) false) checkedState).2 = .panic ∧
    (step demoEnv (.create 0 .scoped (.text hollowText) false) checkedState).2 = .style 4 ∧
    (step checkedEnv (.create 0 .scoped (.text (c! "@keyframes m{from{}to{top:0}}")) false) checkedState).2 = .style 4 := by
  refine ⟨counter_names, by decide +kernel, ⟨(checkedState.mgrs[0]?).get (by decide +kernel), by decide +kernel, ?_⟩,
    by decide +kernel, by decide +kernel, by decide +kernel, by decide +kernel⟩
  have : ((checkedState.mgrs[0]?).get (by decide +kernel)).pref = c! "stylist" := by decide +kernel
  rw [this]
  unfold NameChars
  decide

/-- **C108, limit.** A style that was loaded with style data is not checked: creating it again is no
panic. -/
theorem C108_limit_loaded :
    let key : Key := { isGlobal := false, pref := c! "stylist", ast := hollowSheet }
    let s := (step checkedEnv (.load 0 [{ key, id := c! "stylist-x", text := [] }]) checkedState).1
    (step checkedEnv (.create 0 .scoped (.text hollowText) false) s).2 = .style 4 := by
  decide +kernel

end Manager
