import Verif.Proofs.Groups
import Verif.Proofs.Headers

/-! # Printed selectors, and the groups of a whole sheet -/

namespace GroupsP
open Spec Render HeadersP DeclsP

/-! ## Trimmed texts by their ends -/

def HeadOk (s : Str) : Prop := ∀ c ∈ s.head?, Str.isWhitespace c = false
def LastOk (s : Str) : Prop := ∀ c ∈ s.getLast?, Str.isWhitespace c = false

theorem trimEnd_last (s : Str) : LastOk (Str.trimEnd s) := by
  induction s with
  | nil => intro c hc; simp [Str.trimEnd] at hc
  | cons a s ih =>
    rw [Str.trimEnd]
    cases h : Str.trimEnd s with
    | nil =>
      simp only
      split
      · intro c hc; simp at hc
      · rename_i ha
        intro c hc
        simp at hc
        subst hc; simpa using ha
    | cons b t =>
      rw [h] at ih
      intro c hc
      apply ih c
      simpa [List.getLast?_cons_cons] using hc

theorem trimEnd_of_last {s : Str} (h : LastOk s) : Str.trimEnd s = s := by
  induction s with
  | nil => rfl
  | cons a s ih =>
    rw [Str.trimEnd]
    cases s with
    | nil =>
      have := h a (by simp)
      simp [Str.trimEnd, this]
    | cons b t =>
      rw [ih (by intro c hc; apply h c; simpa [List.getLast?_cons_cons] using hc)]

theorem trim_iff (s : Str) : Str.trim s = s ↔ HeadOk s ∧ LastOk s := by
  constructor
  · intro h
    refine ⟨trim_head h, ?_⟩
    rw [← h]
    exact trimEnd_last _
  · rintro ⟨h1, h2⟩
    unfold Str.trim
    rw [trimStart_of_head h1]
    exact trimEnd_of_last h2

theorem LastOk.append {a b : Str} (ha : LastOk a) (hb : LastOk b) : LastOk (a ++ b) := by
  intro c hc
  rw [Option.mem_def, List.getLast?_append] at hc
  cases hl : b.getLast? with
  | none => rw [hl] at hc; exact ha c hc
  | some d => rw [hl] at hc; exact hb c (by rw [hl]; exact hc)

theorem LastOk.tail {a : Char} {s : Str} (h : LastOk (a :: s)) : LastOk s := by
  intro c hc
  apply h c
  cases s with
  | nil => simp at hc
  | cons b t => simpa [List.getLast?_cons_cons] using hc

theorem LastOk.cons {a : Char} {s : Str} (h : LastOk (a :: s)) (t : Str) (hts : t = [] → s = [])
    (ht : LastOk t) : LastOk (a :: t) := by
  intro c hc
  cases t with
  | nil => rw [hts rfl] at h; exact h c hc
  | cons b u => exact ht c (by simpa [List.getLast?_cons_cons] using hc)

/-! ## Replacing `&` and `:root` in selector texts -/

/-- Text that can stand for `&` anywhere. -/
structure Neutral (r : Str) : Prop where
  out : lexRun (c! "$,{};@/") .out r = some .out
  inStr : lexRun (c! "$,{};@/") .inStr r = some .inStr
  esc : lexRun (c! "$,{};@/") .esc r = some .inStr
  ne : r ≠ []
  head : HeadOk r
  last : LastOk r
  amp : '&' ∉ r

theorem neutral_root : Neutral (c! ":root") := by
  refine ⟨by decide, by decide, by decide, by decide, ?_, ?_, by decide⟩
  · intro c hc; simp at hc; subst hc; decide
  · intro c hc; simp at hc; subst hc; decide

theorem Neutral.run {r : Str} (h : Neutral r) (q : Lex) (t : Str) :
    lexRun (c! "$,{};@/") q (r ++ t) = lexRun (c! "$,{};@/") q ('&' :: t) := by
  rw [lexRun_append]
  cases q
  · rw [h.out]; simp [lexRun]
  · rw [h.inStr]; simp [lexRun]
  · rw [h.esc]; simp [lexRun]

theorem root_run (q : Lex) (t : Str) :
    lexRun (c! "$,{};@/") q (':' :: 'r' :: 'o' :: 'o' :: 't' :: t) =
      lexRun (c! "$,{};@/") q ('&' :: t) := neutral_root.run q t

theorem cons_run (c : Char) {s t : Str} (h : ∀ q, lexRun (c! "$,{};@/") q s = lexRun (c! "$,{};@/") q t)
    (q : Lex) : lexRun (c! "$,{};@/") q (c :: s) = lexRun (c! "$,{};@/") q (c :: t) := by
  cases q <;> simp only [lexRun, h]

theorem expandAmp_run {r : Str} (h : Neutral r) (s : Str) :
    ∀ q, lexRun (c! "$,{};@/") q (expandAmp r s) = lexRun (c! "$,{};@/") q s := by
  induction s using expandAmp.induct with
  | case1 => intro q; rfl
  | case2 s ih => intro q; rw [expandAmp, h.run]; exact cons_run _ ih q
  | case3 c s hc ih => intro q; rw [expandAmp]; exact cons_run _ ih q; exact hc

theorem expand_run {r : Str} (h : Neutral r) (s : Str) :
    ∀ q, lexRun (c! "$,{};@/") q (expand r s) = lexRun (c! "$,{};@/") q s := by
  induction s using expand.induct with
  | case1 => intro q; rfl
  | case2 s ih => intro q; rw [expand, h.run]; exact cons_run _ ih q
  | case3 s ih => intro q; rw [expand, h.run, root_run]; exact cons_run _ ih q
  | case4 c s h1 h2 ih => intro q; rw [expand]; exact cons_run _ ih q; exact h1; exact h2

theorem expandAmp_amp {r : Str} (h : '&' ∉ r) (s : Str) : '&' ∉ expandAmp r s := by
  induction s using expandAmp.induct with
  | case1 => simp [expandAmp]
  | case2 s ih => rw [expandAmp]; simp [h, ih]
  | case3 c s hc ih =>
    rw [expandAmp]
    · simp only [List.mem_cons, not_or]; exact ⟨fun e => hc e.symm, ih⟩
    · exact hc

theorem expand_amp {r : Str} (h : '&' ∉ r) (s : Str) : '&' ∉ expand r s := by
  induction s using expand.induct with
  | case1 => simp [expand]
  | case2 s ih => rw [expand]; simp [h, ih]
  | case3 s ih => rw [expand]; simp [h, ih]
  | case4 c s hc h2 ih =>
    rw [expand]
    · simp only [List.mem_cons, not_or]; exact ⟨fun e => hc e.symm, ih⟩
    · exact hc
    · exact h2

theorem expandAmp_nil {r s : Str} (h : r ≠ []) (he : expandAmp r s = []) : s = [] := by
  induction s using expandAmp.induct with
  | case1 => rfl
  | case2 s ih => rw [expandAmp] at he; simp at he; exact absurd he.1 h
  | case3 c s hc ih =>
    rw [expandAmp] at he
    · cases he
    · exact hc

theorem expand_nil {r s : Str} (h : r ≠ []) (he : expand r s = []) : s = [] := by
  induction s using expand.induct with
  | case1 => rfl
  | case2 s ih => rw [expand] at he; simp at he; exact absurd he.1 h
  | case3 s ih => rw [expand] at he; simp at he; exact absurd he.1 h
  | case4 c s hc h2 ih =>
    rw [expand] at he
    · cases he
    · exact hc
    · exact h2

theorem HeadOk.append {a : Str} (h : HeadOk a) (hne : a ≠ []) (b : Str) : HeadOk (a ++ b) := by
  cases a with
  | nil => exact absurd rfl hne
  | cons c a => intro d hd; exact h d (by simpa using hd)

theorem expandAmp_last {r : Str} (h : Neutral r) (s : Str) (hs : LastOk s) : LastOk (expandAmp r s) := by
  induction s using expandAmp.induct with
  | case1 => exact hs
  | case2 s ih => rw [expandAmp]; exact h.last.append (ih hs.tail)
  | case3 c s hc ih =>
    rw [expandAmp]
    · exact hs.cons _ (expandAmp_nil h.ne) (ih hs.tail)
    · exact hc

theorem expand_last {r : Str} (h : Neutral r) (s : Str) (hs : LastOk s) : LastOk (expand r s) := by
  induction s using expand.induct with
  | case1 => exact hs
  | case2 s ih => rw [expand]; exact h.last.append (ih hs.tail)
  | case3 s ih => rw [expand]; exact h.last.append (ih hs.tail.tail.tail.tail.tail)
  | case4 c s hc h2 ih =>
    rw [expand]
    · exact hs.cons _ (expand_nil h.ne) (ih hs.tail)
    · exact hc
    · exact h2

theorem expandAmp_head {r : Str} (h : Neutral r) (s : Str) (hs : HeadOk s) : HeadOk (expandAmp r s) := by
  cases s using expandAmp.induct with
  | case1 => exact hs
  | case2 s => rw [expandAmp]; exact h.head.append h.ne _
  | case3 c s hc =>
    rw [expandAmp]
    · intro d hd; exact hs d (by simpa using hd)
    · exact hc

theorem expand_head {r : Str} (h : Neutral r) (s : Str) (hs : HeadOk s) : HeadOk (expand r s) := by
  cases s using expand.induct with
  | case1 => exact hs
  | case2 s => rw [expand]; exact h.head.append h.ne _
  | case3 s => rw [expand]; exact h.head.append h.ne _
  | case4 c s hc h2 =>
    rw [expand]
    · intro d hd; exact hs d (by simpa using hd)
    · exact hc
    · exact h2

theorem identChar_plain {d : Char} (h : isIdentChar d = true) :
    d ≠ '"' ∧ d ≠ '\\' ∧ d ∉ (c! "$,{};@/") ∧ d ≠ ':' ∧ d ≠ '&' := by
  refine ⟨?_, ?_, ?_, ?_, ?_⟩
  · rintro rfl; revert h; decide
  · rintro rfl; revert h; decide
  · intro hm
    simp only [List.mem_cons, List.not_mem_nil, or_false] at hm
    rcases hm with rfl | rfl | rfl | rfl | rfl | rfl | rfl <;> (revert h; decide)
  · rintro rfl; revert h; decide
  · rintro rfl; revert h; decide

theorem class_run {c : Str} (h : ∀ d ∈ c, isIdentChar d = true) :
    lexRun (c! "$,{};@/") .out c = some .out ∧ lexRun (c! "$,{};@/") .inStr c = some .inStr := by
  induction c with
  | nil => exact ⟨rfl, rfl⟩
  | cons d c ih =>
    obtain ⟨h1, h2, h3, -, -⟩ := identChar_plain (h d (by simp))
    obtain ⟨i1, i2⟩ := ih (fun e he => h e (by simp [he]))
    exact ⟨by rw [lexRun, if_neg h1, if_neg h3, i1], by rw [lexRun, if_neg h1, if_neg h2, i2]⟩

theorem neutral_class {c : Str} (h : CleanClass c) : Neutral ('.' :: c) := by
  obtain ⟨i1, i2⟩ := class_run (fun d hd => (h.2 d hd).1)
  refine ⟨?_, ?_, ?_, by simp, ?_, ?_, ?_⟩
  · rw [lexRun, if_neg (by decide), if_neg (by decide), i1]
  · rw [lexRun, if_neg (by decide), if_neg (by decide), i2]
  · rw [lexRun, i2]
  · intro d hd; simp at hd; subst hd; decide
  · intro d hd
    have : d ∈ '.' :: c := List.mem_of_getLast? hd
    rcases List.mem_cons.1 this with rfl | hm
    · decide
    · exact (h.2 d hm).2
  · simp only [List.mem_cons, not_or]
    exact ⟨by decide, fun hm => (identChar_plain (h.2 _ hm).1).2.2.2.2 rfl⟩

theorem class_colon {c : Str} (h : CleanClass c) : ':' ∉ c :=
  fun hm => (identChar_plain (h.2 _ hm).1).2.2.2.1 rfl

theorem neutral_current {cls : Option Str} (h : ∀ c ∈ cls, CleanClass c) : Neutral (current cls) := by
  cases cls with
  | none => exact neutral_root
  | some c => exact neutral_class (h c rfl)

theorem Neutral.printed {r : Str} (h : Neutral r) : PrintedSel r :=
  ⟨h.out, h.ne, (trim_iff r).2 ⟨h.head, h.last⟩, h.amp⟩

theorem printed_sel {cls : Option Str} (h : ∀ c ∈ cls, CleanClass c) {s : Str} (hs : CleanSel s) :
    PrintedSel (scopeSelector cls s) := by
  obtain ⟨h1, h2, h3⟩ := hs
  obtain ⟨hh, hl⟩ := (trim_iff s).1 h3
  cases cls with
  | none =>
    refine ⟨?_, fun he => h2 (expandAmp_nil (by decide) he), (trim_iff _).2 ⟨expandAmp_head neutral_root s hh,
      expandAmp_last neutral_root s hl⟩, expandAmp_amp (by decide) s⟩
    show lexRun _ _ _ = _
    rw [scopeSelector, expandAmp_run neutral_root]
    exact h1
  | some c =>
    have hn := neutral_class (h c rfl)
    simp only [scopeSelector]
    split
    · refine ⟨?_, fun he => h2 (expand_nil hn.ne he), (trim_iff _).2 ⟨expand_head hn s hh,
        expand_last hn s hl⟩, expand_amp hn.amp s⟩
      show lexRun _ _ _ = _
      rw [expand_run hn]
      exact h1
    · rename_i hno
      have hamp : '&' ∉ s := fun he => hno (Or.inl he)
      split
      · refine ⟨SelText.append hn.out h1, by simp, (trim_iff _).2 ⟨hn.head.append hn.ne _, hn.last.append hl⟩, ?_⟩
        rw [List.mem_append, not_or]
        exact ⟨hn.amp, hamp⟩
      · refine ⟨SelText.append hn.out (SelText.append (s := c! " ") (by decide) h1), by simp,
          (trim_iff _).2 ⟨hn.head.append hn.ne _, hn.last.append ?_⟩, ?_⟩
        · intro d hd
          cases s with
          | nil => exact absurd rfl h2
          | cons e t => exact hl d (by simpa [List.getLast?_cons_cons] using hd)
        · rw [List.mem_append, not_or]
          refine ⟨hn.amp, ?_⟩
          simp [hamp]

theorem header_head {sels : List Str} (hne : sels ≠ []) (h : ∀ x ∈ sels, PrintedSel x) :
    (header sels).head? ≠ some '@' := by
  cases sels with
  | nil => exact absurd rfl hne
  | cons s t =>
    obtain ⟨h1, h2, -⟩ := h s (by simp)
    unfold header
    rw [join_head h2]
    exact head_of_sel h1

/-! ## Sheets -/

/-- A group that is as it should be, but an animation may have no frames. -/
def Group.Sound (P : Str → Prop) : Group → Prop
  | .decls R s D => (∀ r ∈ R, CleanAt conditionalNames r) ∧ s ≠ [] ∧ (∀ x ∈ s, P x) ∧
      D ≠ [] ∧ ∀ p ∈ D, CleanDecl p.1 p.2
  | .frames R k F => (∀ r ∈ R, CleanAt conditionalNames r) ∧ CleanAt [c! "@keyframes"] k ∧
      ∀ f ∈ F, CleanFrame f.1 ∧ f.2 ≠ [] ∧ ∀ p ∈ f.2, CleanDecl p.1 p.2

/-- An animation without frames. -/
def Group.hollow : Group → Bool
  | .decls _ _ _ => false
  | .frames _ _ F => F.isEmpty

theorem Group.holds_sound {P : Str → Prop} {g : Group} (h : g.Holds P) : g.Sound P ∧ g.hollow = false := by
  cases g with
  | decls R s D => exact ⟨h, rfl⟩
  | frames R k F =>
    obtain ⟨h1, h2, h3, h4⟩ := h
    refine ⟨⟨h1, h2, h4⟩, ?_⟩
    cases F with
    | nil => exact absurd rfl h3
    | cons => rfl

theorem Group.sound_holds {P : Str → Prop} {g : Group} (h : g.Sound P) (hh : g.hollow = false) : g.Holds P := by
  cases g with
  | decls R s D => exact h
  | frames R k F =>
    obtain ⟨h1, h2, h4⟩ := h
    refine ⟨h1, h2, ?_, h4⟩
    rintro rfl
    cases hh

mutual
/-- There is an animation of which no frame is printed. -/
def hollowIn : RBC → Bool
  | .attr _ _ => false
  | .block _ _ => false
  | .rule cond content =>
    if Str.startsWith (c! "@keyframes") cond.flatten then (framesOf content).isEmpty else hollowAll content
/-- The same for a list. -/
def hollowAll : List RBC → Bool
  | [] => false
  | x :: xs => hollowIn x || hollowAll xs
end

theorem hollowAll_any (xs : List RBC) : hollowAll xs = xs.any hollowIn := by
  induction xs with
  | nil => rfl
  | cons x xs ih => simp [hollowAll, ih]

/-- What holds after a piece of a sheet has been written. -/
def WroteTop (P : Str → Prop) (c : Ctx) (ps : List Ctx) (r : List Ctx × Str) (ds : List Decl) (ks : List (List Str))
    (hw : Bool) : Prop :=
  ∃ (c' : Ctx) (ps' : List Ctx) (gs : List Group), r = (c' :: ps', gs.flatMap Group.text) ∧ Same c c' ∧
    ClosedAll (c :: ps) (c' :: ps') ∧ (∀ g ∈ gs, Group.Sound P g) ∧ gs.flatMap Group.sem = ds ∧
    gs.flatMap Group.kfs = ks ∧ gs.any Group.hollow = hw

theorem kf_prefix {t : Str} (h : CleanAt [c! "@keyframes"] t) : c! "@keyframes" <+: t := by
  obtain ⟨n, hn, r, rfl, -⟩ := h
  simp only [List.mem_singleton] at hn
  subst hn
  exact ⟨c! " " ++ r, by simp⟩

theorem declsInAll_mem {sel : Str → Str} {cu : Str} {R : List Str} {o : Option Str} {x : RBC} :
    ∀ {xs : List RBC}, x ∈ xs → ∀ d ∈ declsIn sel cu R o x, d ∈ declsInAll sel cu R o xs
  | y :: xs, h, d, hd => by
    rw [declsInAll, List.mem_append]
    rcases List.mem_cons.1 h with rfl | h
    · exact Or.inl hd
    · exact Or.inr (declsInAll_mem h d hd)

/-- `CleanScope` with the property `Q` of selectors. -/
inductive ScopeWith (Q : Str → Prop) : RBC → Prop
  | block (sels : List Selector) (content : List RBC) : (∀ s ∈ sels, Q s.flatten) →
      (∀ x ∈ content, CleanItem x) → ScopeWith Q (.block sels content)
  | rule (cond : List Str) (content : List RBC) : CleanAt conditionalNames cond.flatten →
      (∀ x ∈ content, ScopeWith Q x) → ScopeWith Q (.rule cond content)
  | keyframes (cond : List Str) (frames : List RBC) : CleanAt [c! "@keyframes"] cond.flatten →
      (∀ x ∈ frames, CleanFrameRule x) →
      (∃ fc k v rest, .rule fc (.attr k v :: rest) ∈ frames) → ScopeWith Q (.rule cond frames)

/-- The same, but an animation may have no declarations. -/
inductive SoundWith (Q : Str → Prop) : RBC → Prop
  | block (sels : List Selector) (content : List RBC) : (∀ s ∈ sels, Q s.flatten) →
      (∀ x ∈ content, CleanItem x) → SoundWith Q (.block sels content)
  | rule (cond : List Str) (content : List RBC) : CleanAt conditionalNames cond.flatten →
      (∀ x ∈ content, SoundWith Q x) → SoundWith Q (.rule cond content)
  | keyframes (cond : List Str) (frames : List RBC) : CleanAt [c! "@keyframes"] cond.flatten →
      (∀ x ∈ frames, CleanFrameRule x) → SoundWith Q (.rule cond frames)

theorem framesOf_mem {fc : List Str} {y : RBC} {ys : List RBC} :
    ∀ {xs : List RBC}, .rule fc (y :: ys) ∈ xs → framesOf xs ≠ []
  | .rule c (z :: zs) :: xs, _ => by simp [framesOf]
  | .rule c [] :: xs, h => by
    rw [framesOf]
    · rcases List.mem_cons.1 h with h | h
      · cases h
      · exact framesOf_mem h
    · simp
  | .attr _ _ :: xs, h => by
    rw [framesOf]
    · rcases List.mem_cons.1 h with h | h
      · cases h
      · exact framesOf_mem h
    · simp
  | .block _ _ :: xs, h => by
    rw [framesOf]
    · rcases List.mem_cons.1 h with h | h
      · cases h
      · exact framesOf_mem h
    · simp

theorem scopeWith_sound {Q : Str → Prop} {x : RBC} (h : ScopeWith Q x) : SoundWith Q x ∧ hollowIn x = false := by
  induction h with
  | block sels content h1 h2 => exact ⟨.block sels content h1 h2, rfl⟩
  | rule cond content h1 _ ih =>
    refine ⟨.rule cond content h1 (fun x hx => (ih x hx).1), ?_⟩
    have hk' : ¬ Str.startsWith (c! "@keyframes") cond.flatten = true :=
      fun h => not_at h1 (List.isPrefixOf_iff_prefix.1 h)
    rw [hollowIn, if_neg hk', hollowAll_any, List.any_eq_false]
    exact fun x hx => by rw [(ih x hx).2]; simp
  | keyframes cond frames h1 h2 h3 =>
    refine ⟨.keyframes cond frames h1 h2, ?_⟩
    have hk' : Str.startsWith (c! "@keyframes") cond.flatten = true := List.isPrefixOf_iff_prefix.2 (kf_prefix h1)
    rw [hollowIn, if_pos hk']
    obtain ⟨fc, k, v, rest, hm⟩ := h3
    rw [List.isEmpty_eq_false_iff]
    exact framesOf_mem hm

theorem scopeWith_clean {x : RBC} (h : CleanScope x) : ScopeWith CleanSel x := by
  induction h with
  | block sels content h1 h2 => exact .block sels content h1 h2
  | rule cond content h1 _ ih => exact .rule cond content h1 ih
  | keyframes cond frames h1 h2 h3 => exact .keyframes cond frames h1 h2 h3

/-- The selectors with `Q` are printed as selectors with `P`. -/
structure Printing (cls : Option Str) (Q P : Str → Prop) : Prop where
  clean : ∀ c ∈ cls, CleanClass c
  self : P (current cls)
  inner : ∀ s, Q s → P (scopeSelector cls s)
  head : ∀ s, P s → s ≠ [] ∧ s.head? ≠ some '@'

theorem printing_clean {cls : Option Str} (h : ∀ c ∈ cls, CleanClass c) : Printing cls CleanSel PrintedSel :=
  ⟨h, (neutral_current h).printed, fun _ hs => printed_sel h hs, fun _ hs => ⟨hs.2.1, head_of_sel hs.1⟩⟩

theorem Printing.header {cls : Option Str} {Q P : Str → Prop} (h : Printing cls Q P) {sels : List Str}
    (hne : sels ≠ []) (hs : ∀ x ∈ sels, P x) : (header sels).head? ≠ some '@' := by
  cases sels with
  | nil => exact absurd rfl hne
  | cons s t =>
    obtain ⟨h1, h2⟩ := h.head s (hs s (by simp))
    unfold GroupsP.header
    rw [join_head h1]
    exact h2

mutual
theorem scope_wrote {cls : Option Str} {Q P : Str → Prop} (hpq : Printing cls Q P) :
    ∀ (x : RBC) (c : Ctx) (ps : List Ctx), SoundWith Q x → AllClosed (c :: ps) → c.selector = none →
    c.className = cls → (∀ r ∈ c.rules, CleanAt conditionalNames r) →
    WroteTop P c ps (RBC.write x (c :: ps)) (declsIn (scopeSelector cls) (current cls) c.rules c.selector x)
      (keyframesIn (scopeSelector cls) (current cls) c.rules c.selector x) (hollowIn x)
  | .attr _ _, c, ps, hx, _, _, _, _ => by cases hx
  | .block sels content, c, ps, hx, hclosed, hs, hc, hr => by
    cases hx with
    | block _ _ hsels hcontent =>
      have hbsel := blockSelector_eq c sels
      rw [hc, Text.sel_eq cls (fun c hc => class_colon (hpq.clean c hc)), hs] at hbsel
      obtain ⟨σs, hne, hpr, hσ⟩ : ∃ σs : List Str, σs ≠ [] ∧ (∀ x ∈ σs, P x) ∧
          blockSelector (scopeSelector cls) (current cls) none sels = header σs := by
        cases sels with
        | nil =>
          refine ⟨[current cls], by simp, ?_, rfl⟩
          intro x hx
          simp only [List.mem_singleton] at hx
          subst hx
          exact hpq.self
        | cons s t =>
          refine ⟨(s :: t).map (fun s => scopeSelector cls s.flatten), by simp, ?_, rfl⟩
          intro x hx
          obtain ⟨s', hs', rfl⟩ := List.mem_map.1 hx
          exact hpq.inner _ (hsels s' hs')
      rw [hσ] at hbsel
      generalize hb : c.withBlockCondition (condStr cls sels) = b at hbsel
      have hbrules : b.rules = c.rules := by rw [← hb]; rfl
      have hbopen : b.isOpen = false := by rw [← hb]; rfl
      obtain ⟨⟨c1, ps1, gs, st1, e1, e2, e3, e4, e5, e6, e7, e8, e9⟩, e10⟩ :=
        items_wrote hne hpr (hpq.header hne hpr) (scopeSelector cls) (current cls) content b (c :: ps) none
          hcontent hbsel (by rw [hbrules]; exact hr)
          (Or.inr ⟨hbopen, allClosed_match hclosed⟩) trivial
          (fun m hm ho => by rw [hclosed m hm] at ho; cases ho)
      cases e3 with
      | @cons _ c2 _ ps2 hc2 hps2 =>
      have hcl2 : AllClosed (c2 :: ps2) := hclosed.closedAll (.cons hc2 hps2)
      simp only [RBC.write, declsIn, keyframesIn, hs, hσ, hc]
      rw [hb, e1]
      rw [hbrules, hbsel] at e9 e10
      simp only [Ctx.finishChain, List.tail_cons]
      rw [show Part.text (header σs) none = [] from rfl, List.nil_append] at e8
      rw [show Part.sem (header σs) none = [] from rfl, List.nil_append] at e9
      refine ⟨c2, ps2, gs ++ st1.done σs, ?_, hc2.same, .cons hc2 hps2, ?_, ?_, ?_, ?_⟩
      · rw [e8, List.flatMap_append, Part.done_text]
        rcases e4 with ⟨h1, h2, h3⟩ | ⟨h1, h2⟩
        · rw [finish_open h1 h3, h2, closeText, List.append_assoc]
        · have : Part.path (header σs) st1 = none := by
            cases hp : Part.path (header σs) st1 with
            | none => rfl
            | some p =>
              rw [hp] at h2
              exfalso
              have : ∀ (l : List Ctx), AllClosed l → ¬ Match l (some p) := by
                intro l
                induction l with
                | nil => intro _ h; cases h
                | cons m l ih =>
                  intro hl h
                  rcases h with ⟨h, _⟩ | ⟨_, h⟩
                  · rw [hl m (by simp)] at h; cases h
                  · exact ih (fun x hx => hl x (by simp [hx])) h
              exact this _ hcl2 h2
          rw [this]
          simp [Ctx.finish, h1, closeText]
      · intro g hg
        rcases List.mem_append.1 hg with hg | hg
        · exact (Group.holds_sound (e6 g hg)).1
        · exact (Group.holds_sound (Part.done_ok hne hpr e5 g hg)).1
      · rw [List.flatMap_append, Part.done_sem, e9]
      · rw [List.flatMap_append, Part.done_kfs, e7, e10]; rfl
      · rw [List.any_eq_false.2]
        · rfl
        · intro g hg
          rcases List.mem_append.1 hg with hg | hg
          · rw [(Group.holds_sound (e6 g hg)).2]; simp
          · rw [(Group.holds_sound (Part.done_ok hne hpr e5 g hg)).2]; simp
  | .rule cond content, c, ps, hx, hclosed, hs, hc, hr => by
    cases hx with
    | rule _ _ hat hcontent =>
      have hk := not_at hat
      have hk' : ¬ Str.startsWith (c! "@keyframes") cond.flatten = true :=
        fun h => hk (List.isPrefixOf_iff_prefix.1 h)
      obtain ⟨c1, ps1, gs, e1, e2, e3, e4, e5, e6, e7⟩ :=
        scopes_wrote hpq content (c.withRuleCondition cond.flatten) (c :: ps) hcontent
          (by
            intro m hm
            rcases List.mem_cons.1 hm with rfl | hm
            · rfl
            · exact hclosed m hm) hs hc
          (by
            intro r hr'
            simp only [Ctx.withRuleCondition, List.mem_append, List.mem_singleton] at hr'
            rcases hr' with hr' | rfl
            · exact hr r hr'
            · exact hat)
      cases e3 with
      | @cons _ _ _ _ h1 h2 =>
      cases h2 with
      | @cons _ c2 _ ps2 hc2 hps2 =>
      have hc1 : c1.isOpen = false := by
        cases ho : c1.isOpen with
        | false => rfl
        | true => have := h1.2.2.2 ho; cases this
      refine ⟨c2, ps2, gs, ?_, hc2.same, .cons hc2 hps2, e4, e5, ?_, ?_⟩
      · simp only [RBC.write, if_neg hk']
        rw [e1]
        simp [Ctx.finishChain, Ctx.finish, hc1]
      · simp only [keyframesIn, if_neg hk, List.nil_append]
        exact e6
      · rw [hollowIn, if_neg hk']
        exact e7
    | keyframes _ _ hat hframes =>
      have hk := kf_prefix hat
      have hk' : Str.startsWith (c! "@keyframes") cond.flatten = true := List.isPrefixOf_iff_prefix.2 hk
      let k := c.withRuleCondition cond.flatten
      have hkc : k.conditions = c.rules ++ [cond.flatten] := by
        simp [k, Ctx.withRuleCondition, Ctx.conditions, hs]
      have hstart := start_closed (c := k) (ps := c :: ps) rfl (close_closed k (c :: ps) hclosed) hclosed
      obtain ⟨F, f1, f2, f3, f4, f5⟩ := frames_wrote (c := { k with isOpen := true }) (ps := c :: ps) rfl hclosed hs
        (scopeSelector cls) (current cls) content hframes
      have hkc' : ({ k with isOpen := true } : Ctx).conditions = c.rules ++ [cond.flatten] := hkc
      refine ⟨c, ps, [.frames c.rules cond.flatten F], ?_, ⟨rfl, rfl, rfl⟩, .refl _, ?_, ?_, ?_, ?_⟩
      · rw [RBC.write]
        simp only [if_pos hk']
        rw [show c.withRuleCondition cond.flatten = k from rfl, hstart]
        simp only [f1, Ctx.finishChain, List.tail_cons]
        rw [finish_open rfl hclosed, hkc', hkc]
        simp [Group.text]
      · intro g hg
        simp only [List.mem_singleton] at hg
        subst hg
        exact ⟨hr, hat, f2⟩
      · have f3' : declsInAll (scopeSelector cls) (current cls) (c.rules ++ [cond.flatten]) c.selector content =
          F.flatMap (fun f => f.2.map (fun p => ⟨({ k with isOpen := true } : Ctx).conditions ++ [f.1], p.1, p.2⟩)) := f3
        simp only [declsIn]
        rw [f3', hkc']
        simp [Group.sem]
      · have f4' : keyframesInAll (scopeSelector cls) (current cls) (c.rules ++ [cond.flatten]) c.selector content = [] := f4
        simp only [keyframesIn, if_pos hk]
        rw [f4', hs]
        simp [Group.kfs]
      · rw [hollowIn, if_pos hk', ← f5]
        simp [Group.hollow]
theorem scopes_wrote {cls : Option Str} {Q P : Str → Prop} (hpq : Printing cls Q P) :
    ∀ (xs : List RBC) (c : Ctx) (ps : List Ctx), (∀ x ∈ xs, SoundWith Q x) → AllClosed (c :: ps) →
    c.selector = none → c.className = cls → (∀ r ∈ c.rules, CleanAt conditionalNames r) →
    WroteTop P c ps (RBC.writes xs (c :: ps))
      (declsInAll (scopeSelector cls) (current cls) c.rules c.selector xs)
      (keyframesInAll (scopeSelector cls) (current cls) c.rules c.selector xs) (hollowAll xs)
  | [], c, ps, _, _, _, _, _ => ⟨c, ps, [], rfl, ⟨rfl, rfl, rfl⟩, .refl _, by simp, rfl, rfl, rfl⟩
  | x :: xs, c, ps, hx, hclosed, hs, hc, hr => by
    obtain ⟨c1, ps1, gs1, a1, a2, a3, a4, a5, a6, a7⟩ := scope_wrote hpq x c ps (hx x (by simp)) hclosed hs hc hr
    obtain ⟨c2, ps2, gs2, b1, b2, b3, b4, b5, b6, b7⟩ := scopes_wrote hpq xs c1 ps1 (fun y hy => hx y (by simp [hy]))
      (hclosed.closedAll a3) (by rw [a2.2.2]; exact hs) (by rw [a2.1]; exact hc) (by rw [a2.2.1]; exact hr)
    rw [a2.2.1, a2.2.2] at b5 b6
    refine ⟨c2, ps2, gs1 ++ gs2, ?_, ⟨b2.1.trans a2.1, b2.2.1.trans a2.2.1, b2.2.2.trans a2.2.2⟩,
      a3.trans b3, ?_, ?_, ?_, ?_⟩
    · simp only [RBC.writes, a1, b1, List.flatMap_append]
    · intro g hg
      rcases List.mem_append.1 hg with hg | hg
      · exact a4 g hg
      · exact b4 g hg
    · rw [List.flatMap_append, a5, b5]; rfl
    · rw [List.flatMap_append, a6, b6]; rfl
    · rw [List.any_append, a7, b7]; rfl
end

/-- The text of such a sheet is a sequence of groups with its declarations. -/
theorem sheet_groups_sound {s : Sheet} {cls : Option Str} {Q P : Str → Prop} (hpq : Printing cls Q P)
    (hs : ∀ x ∈ s, SoundWith Q x.toRBC) :
    ∃ gs : List Group, s.toStyleStr cls = gs.flatMap Group.text ∧ (∀ g ∈ gs, g.Sound P) ∧
      gs.flatMap Group.sem = decls cls s ∧ gs.flatMap Group.kfs = Spec.keyframes cls s ∧
      gs.any Group.hollow = hollowAll (s.map ScopeContent.toRBC) := by
  obtain ⟨c', ps', gs, e1, -, -, e4, e5, e6, e7⟩ := scopes_wrote hpq (s.map ScopeContent.toRBC) (Ctx.new cls) []
    (by
      intro x hx
      obtain ⟨y, hy, rfl⟩ := List.mem_map.1 hx
      exact hs y hy)
    (by intro m hm; simp at hm; subst hm; rfl) rfl rfl (by simp [Ctx.new])
  refine ⟨gs, ?_, e4, e5, e6, e7⟩
  rw [Sheet.toStyleStr, sheet_write_eq, e1]

/-- The same if animations have declarations. -/
theorem sheet_groups_with {s : Sheet} {cls : Option Str} {Q P : Str → Prop} (hpq : Printing cls Q P)
    (hs : ∀ x ∈ s, ScopeWith Q x.toRBC) :
    ∃ gs : List Group, s.toStyleStr cls = gs.flatMap Group.text ∧ (∀ g ∈ gs, g.Holds P) ∧
      gs.flatMap Group.sem = decls cls s ∧ gs.flatMap Group.kfs = Spec.keyframes cls s := by
  obtain ⟨gs, h1, h2, h3, h4, h5⟩ := sheet_groups_sound hpq (fun x hx => (scopeWith_sound (hs x hx)).1)
  refine ⟨gs, h1, fun g hg => Group.sound_holds (h2 g hg) ?_, h3, h4⟩
  have h6 : hollowAll (s.map ScopeContent.toRBC) = false := by
    rw [hollowAll_any, List.any_eq_false]
    intro y hy
    obtain ⟨x, hx, rfl⟩ := List.mem_map.1 hy
    rw [(scopeWith_sound (hs x hx)).2]; simp
  rw [h6, List.any_eq_false] at h5
  exact Bool.eq_false_iff.2 (h5 g hg)

/-- The text of a clean sheet is a sequence of groups with its declarations. -/
theorem sheet_groups {s : Sheet} (hs : CleanSheet s) {cls : Option Str} (hcls : ∀ c ∈ cls, CleanClass c) :
    ∃ gs : List Group, s.toStyleStr cls = gs.flatMap Group.text ∧ (∀ g ∈ gs, g.Ok) ∧
      gs.flatMap Group.sem = decls cls s ∧ gs.flatMap Group.kfs = Spec.keyframes cls s :=
  sheet_groups_with (printing_clean hcls) (fun x hx => scopeWith_clean (hs x hx))

end GroupsP
