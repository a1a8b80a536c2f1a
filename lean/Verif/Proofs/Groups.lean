import Verif.Proofs.Text
import Verif.Spec.Clean

/-!
# The text of a clean sheet is a sequence of flat groups

Each group opens all its conditions from the top level, holds declarations (or the
frames of a `@keyframes`), and closes all its conditions again.
-/

namespace GroupsP
open Spec Render

/-! ## Texts -/

def opens (d : Nat) (hs : List Str) : Str := layout d (hs.map .opn)
def body (d : Nat) (D : List (Str × Str)) : Str := layout d (D.map (fun p => .decl p.1 p.2))
def closes (n k : Nat) : Str := layout n (List.replicate k .cls)

/-- A frame of `@keyframes`. -/
abbrev Frame := Str × List (Str × Str)

inductive Group where
  | decls (R : List Str) (sels : List Str) (D : List (Str × Str))
  | frames (R : List Str) (k : Str) (F : List Frame)

def header (sels : List Str) : Str := Str.join (c! ", ") sels

def frameText (d : Nat) (f : Frame) : Str := opens d [f.1] ++ body (d + 1) f.2 ++ closes (d + 1) 1

def Group.text : Group → Str
  | .decls R s D => opens 0 (R ++ [header s]) ++ body (R.length + 1) D ++ closes (R.length + 1) (R.length + 1)
  | .frames R k F => opens 0 (R ++ [k]) ++ F.flatMap (frameText (R.length + 1)) ++
      closes (R.length + 1) (R.length + 1)

def Group.sem : Group → List Decl
  | .decls R s D => D.map (fun p => ⟨R ++ [header s], p.1, p.2⟩)
  | .frames R k F => F.flatMap (fun f => f.2.map (fun p => ⟨R ++ [k] ++ [f.1], p.1, p.2⟩))

def Group.kfs : Group → List (List Str)
  | .decls _ _ _ => []
  | .frames R k _ => [R ++ [k]]

/-- Selectors as they are printed. -/
def PrintedSel (s : Str) : Prop := SelText s ∧ s ≠ [] ∧ Str.trim s = s ∧ '&' ∉ s

/-- A group that is as it should be, with selectors that have the property `P`. -/
def Group.Holds (P : Str → Prop) : Group → Prop
  | .decls R s D => (∀ r ∈ R, CleanAt conditionalNames r) ∧ s ≠ [] ∧ (∀ x ∈ s, P x) ∧
      D ≠ [] ∧ ∀ p ∈ D, CleanDecl p.1 p.2
  | .frames R k F => (∀ r ∈ R, CleanAt conditionalNames r) ∧ CleanAt [c! "@keyframes"] k ∧ F ≠ [] ∧
      ∀ f ∈ F, CleanFrame f.1 ∧ f.2 ≠ [] ∧ ∀ p ∈ f.2, CleanDecl p.1 p.2

def Group.Ok (g : Group) : Prop := g.Holds PrintedSel

theorem body_append (d : Nat) (D : List (Str × Str)) (k v : Str) :
    body d (D ++ [(k, v)]) = body d D ++ (indent d ++ k ++ c! ": " ++ v ++ c! ";\n") := by
  induction D with
  | nil => simp [body, layout]
  | cons p D ih =>
    simp only [body, List.cons_append, List.map_cons, layout] at ih ⊢
    rw [ih]
    simp

/-! ## The writer's pieces -/

theorem finishLoop_eq {c : Ctx} {ps : List Ctx} (h : cur ps <+: c.conditions) (n : Nat) :
    Ctx.finishLoop c ps n = closes ((cur ps).length + n) n := by
  induction n with
  | zero => rfl
  | succ n ih =>
    simp only [Ctx.finishLoop, Ctx.writeMinPadding, pad_eq, common_length h, ih, closes,
      List.replicate_succ, layout]
    rw [← indent_add]
    rfl

theorem startLoop_eq {c : Ctx} {ps : List Ctx} (h : cur ps <+: c.conditions) (hs : List Str) :
    ∀ i, Ctx.startLoop c ps i hs = opens ((cur ps).length + i) hs := by
  induction hs with
  | nil => intro i; rfl
  | cons x hs ih =>
    intro i
    simp only [Ctx.startLoop, Ctx.writeMinPadding, pad_eq, common_length h, opens, List.map_cons, layout]
    rw [← indent_add, ih (i + 1)]
    rfl

def AllClosed (ps : List Ctx) : Prop := ∀ m ∈ ps, m.isOpen = false

theorem allClosed_cur {ps : List Ctx} (h : AllClosed ps) : cur ps = [] := by
  induction ps with
  | nil => rfl
  | cons m ps ih =>
    rw [cur_closed (h m (by simp))]
    exact ih (fun x hx => h x (by simp [hx]))

theorem AllClosed.closedAll {ps ps' : List Ctx} (h : AllClosed ps) (hc : ClosedAll ps ps') :
    AllClosed ps' := by
  intro m' hm'
  obtain ⟨m, hm, h2⟩ := hc.mem m' hm'
  cases ho : m'.isOpen with
  | false => rfl
  | true => rw [← h m hm]; exact (h2.2.2.2 ho).symm

/-- At most one context is open; `st` are its conditions. -/
def Match : List Ctx → Option (List Str) → Prop
  | [], st => st = none
  | m :: ps, st => (m.isOpen = true ∧ st = some m.conditions ∧ AllClosed ps) ∨
      (m.isOpen = false ∧ Match ps st)

theorem match_none {ps : List Ctx} (h : Match ps none) : AllClosed ps := by
  induction ps with
  | nil => intro m hm; cases hm
  | cons m ps ih =>
    rcases h with ⟨_, h, _⟩ | ⟨h1, h2⟩
    · cases h
    · intro x hx
      rcases List.mem_cons.1 hx with rfl | hx
      · exact h1
      · exact ih h2 x hx

theorem allClosed_match {ps : List Ctx} (h : AllClosed ps) : Match ps none := by
  induction ps with
  | nil => rfl
  | cons m ps ih => exact Or.inr ⟨h m (by simp), ih (fun x hx => h x (by simp [hx]))⟩

def closeText : Option (List Str) → Str
  | none => []
  | some p => closes p.length p.length

theorem finish_open {c : Ctx} {ps : List Ctx} (h : c.isOpen = true) (hp : AllClosed ps) :
    (Ctx.finish c ps).2 = closes c.conditions.length c.conditions.length := by
  have h0 := allClosed_cur hp
  have hpre : cur ps <+: c.conditions := by rw [h0]; exact List.nil_prefix
  simp only [Ctx.finish, h, if_true]
  rw [finishLoop_eq hpre, unique_eq hpre, h0]
  simp

theorem close_closed (c : Ctx) : ∀ ps, AllClosed ps → Ctx.closeUntilCommonParent c ps = (ps, [])
  | [], _ => rfl
  | m :: ps, h => by
    have ih := close_closed c ps (fun x hx => h x (by simp [hx]))
    simp only [Ctx.closeUntilCommonParent, h m (by simp), Bool.false_eq_true, if_false, ih]

theorem close_one (c : Ctx) : ∀ (ps : List Ctx) (st : Option (List Str)), Match ps st →
    (∀ m ∈ ps, m.isOpen = true → ¬ m.conditions <+: c.conditions) →
    ∃ ps', Ctx.closeUntilCommonParent c ps = (ps', closeText st) ∧ ClosedAll ps ps' ∧ AllClosed ps'
  | [], st, h, _ => by
    cases h
    exact ⟨[], rfl, .nil, by intro m hm; cases hm⟩
  | m :: ps, st, h, hn => by
    rcases h with ⟨h1, rfl, h3⟩ | ⟨h1, h2⟩
    · have hd : (Ctx.differConditions c (m :: ps)).isEmpty = false := by
        cases hd : (Ctx.differConditions c (m :: ps)).isEmpty with
        | false => rfl
        | true =>
          exfalso
          refine hn m (by simp) h1 ?_
          have hcur : Ctx.openParentConditions (m :: ps) = m.conditions := cur_open h1
          rw [← hcur]
          apply prefix_of_common
          simp only [Ctx.differConditions, List.isEmpty_iff, List.drop_eq_nil_iff] at hd
          exact hd
      refine ⟨{ m with isOpen := false } :: ps, ?_, .cons ⟨rfl, rfl, rfl, by simp⟩ (.refl _), ?_⟩
      · simp only [Ctx.closeUntilCommonParent, h1, if_true, hd, Bool.false_eq_true, if_false,
          close_closed c ps h3, closeText]
        rw [finish_open h1 h3]
        simp [Ctx.finish]
      · intro x hx
        rcases List.mem_cons.1 hx with rfl | hx
        · rfl
        · exact h3 x hx
    · obtain ⟨ps', e1, e2, e3⟩ := close_one c ps st h2 (fun x hx => hn x (by simp [hx]))
      refine ⟨m :: ps', ?_, .cons (.refl _) e2, ?_⟩
      · simp only [Ctx.closeUntilCommonParent, h1, Bool.false_eq_true, if_false, e1]
      · intro x hx
        rcases List.mem_cons.1 hx with rfl | hx
        · exact h1
        · exact e3 x hx

theorem start_closed {c : Ctx} {ps ps' : List Ctx} {o : Str} (h : c.isOpen = false)
    (hc : Ctx.closeUntilCommonParent c ps = (ps', o)) (hp : AllClosed ps') :
    Ctx.start (c :: ps) = ({ c with isOpen := true } :: ps', o ++ opens 0 c.conditions) := by
  have h0 := allClosed_cur hp
  have hpre : cur ps' <+: c.conditions := by rw [h0]; exact List.nil_prefix
  simp only [Ctx.start, h, Bool.false_eq_true, if_false, hc]
  rw [unique_eq hpre, startLoop_eq hpre, h0]
  simp

/-! ## Inside a block -/

/-- The group being written: its at-rules and its declarations so far. -/
abbrev Part := Option (List Str × List (Str × Str))

def Part.path (σ : Str) : Part → Option (List Str)
  | none => none
  | some (R, _) => some (R ++ [σ])

def Part.text (σ : Str) : Part → Str
  | none => []
  | some (R, D) => opens 0 (R ++ [σ]) ++ body (R.length + 1) D

def Part.sem (σ : Str) : Part → List Decl
  | none => []
  | some (R, D) => D.map (fun p => ⟨R ++ [σ], p.1, p.2⟩)

def Part.Ok : Part → Prop
  | none => True
  | some (R, D) => (∀ r ∈ R, CleanAt conditionalNames r) ∧ D ≠ [] ∧ ∀ p ∈ D, CleanDecl p.1 p.2

/-- The finished group. -/
def Part.done (sels : List Str) : Part → List Group
  | none => []
  | some (R, D) => [.decls R sels D]

theorem Part.done_text (sels : List Str) (st : Part) :
    (st.done sels).flatMap Group.text = st.text (header sels) ++ closeText (st.path (header sels)) := by
  cases st with
  | none => rfl
  | some p =>
    obtain ⟨R, D⟩ := p
    simp [Part.done, Part.text, Part.path, closeText, Group.text]

theorem Part.done_sem (sels : List Str) (st : Part) :
    (st.done sels).flatMap Group.sem = st.sem (header sels) := by
  cases st with
  | none => rfl
  | some p => simp [Part.done, Part.sem, Group.sem]

theorem Part.done_kfs (sels : List Str) (st : Part) : (st.done sels).flatMap Group.kfs = [] := by
  cases st with
  | none => rfl
  | some p => simp [Part.done, Group.kfs]

theorem Part.done_ok {P : Str → Prop} {sels : List Str} (hne : sels ≠ []) (hs : ∀ x ∈ sels, P x) {st : Part}
    (h : st.Ok) : ∀ g ∈ st.done sels, g.Holds P := by
  cases st with
  | none => intro g hg; cases hg
  | some p =>
    intro g hg
    simp only [Part.done, List.mem_singleton] at hg
    subst hg
    exact ⟨h.1, hne, hs, h.2⟩

/-- `c` sits in a nested at-rule below `m`. -/
def Under (σ : Str) (c m : Ctx) : Prop :=
  m.selector = some σ ∧ ∃ x t, c.rules = m.rules ++ x :: t ∧ x ≠ σ

theorem under_not_prefix {σ : Str} {c m : Ctx} (hs : c.selector = some σ) (h : Under σ c m) :
    ¬ m.conditions <+: c.conditions := by
  obtain ⟨h1, x, t, h2, h3⟩ := h
  rintro ⟨u, hu⟩
  simp only [Ctx.conditions, h1, hs, h2, Option.toList_some, List.append_assoc, List.cons_append,
    List.nil_append, List.append_cancel_left_eq, List.cons.injEq] at hu
  exact h3 hu.1.symm

/-- What holds after a piece of a block has been written. -/
def Wrote (P : Str → Prop) (sels : List Str) (c : Ctx) (ps : List Ctx) (st : Part) (r : List Ctx × Str) (ds : List Decl) :
    Prop :=
  ∃ (c' : Ctx) (ps' : List Ctx) (gs : List Group) (st' : Part), r.1 = c' :: ps' ∧ Same c c' ∧ ClosedAll ps ps' ∧
    Match (c' :: ps') (Part.path (header sels) st') ∧ st'.Ok ∧ (∀ g ∈ gs, Group.Holds P g) ∧
    gs.flatMap Group.kfs = [] ∧
    st.text (header sels) ++ r.2 = gs.flatMap Group.text ++ st'.text (header sels) ∧
    st.sem (header sels) ++ ds = gs.flatMap Group.sem ++ st'.sem (header sels)

theorem append_one_inj {α : Type} {a b : List α} {x : α} (h : a ++ [x] = b ++ [x]) : a = b := by
  simpa using h

theorem attr_wrote {P : Str → Prop} {sels : List Str} (hne : sels ≠ []) (hsel : ∀ x ∈ sels, P x)
    {k : Str} {v : List Str} (hd : CleanDecl k v.flatten) {c : Ctx} {ps : List Ctx} {st : Part}
    (hs : c.selector = some (header sels)) (hr : ∀ r ∈ c.rules, CleanAt conditionalNames r)
    (hm : Match (c :: ps) (Part.path (header sels) st)) (hst : st.Ok)
    (hu : ∀ m ∈ ps, m.isOpen = true → Under (header sels) c m) (sel : Str → Str) (cu : Str) :
    Wrote P sels c ps st (RBC.write (.attr k v) (c :: ps)) (declsIn sel cu c.rules c.selector (.attr k v)) := by
  have hcond : c.conditions = c.rules ++ [header sels] := by simp [Ctx.conditions, hs]
  rcases hm with ⟨h1, h2, h3⟩ | ⟨h1, h2⟩
  · -- already open
    cases st with
    | none => cases h2
    | some p =>
      obtain ⟨R, D⟩ := p
      have hR : R = c.rules := by
        simp only [Part.path, Option.some.injEq] at h2
        rw [hcond] at h2
        exact append_one_inj h2
      subst hR
      have he : Ctx.start (c :: ps) = ({ c with isOpen := true } :: ps, []) := by
        simp [Ctx.start, h1]
      refine ⟨{ c with isOpen := true }, ps, [], some (c.rules, D ++ [(k, v.flatten)]), ?_, ⟨rfl, rfl, rfl⟩,
        .refl _, Or.inl ⟨rfl, ?_, h3⟩, ⟨hst.1, by simp, ?_⟩, by simp, rfl, ?_, ?_⟩
      · simp only [RBC.write, he]
      · exact congrArg some hcond.symm
      · intro p hp
        rcases List.mem_append.1 hp with hp | hp
        · exact hst.2.2 p hp
        · simp only [List.mem_singleton] at hp
          subst hp; exact hd
      · have hl : ({ c with isOpen := true } : Ctx).writePadding = indent (c.rules.length + 1) := by
          rw [Ctx.writePadding, pad_eq]
          show indent c.conditions.length = _
          rw [hcond]; simp
        simp only [RBC.write, he, hl, Part.text, body_append]
        simp
      · simp [Part.sem, declsIn, hs]
  · -- closed: close what is open, and open all conditions
    obtain ⟨ps', e1, e2, e3⟩ := close_one c ps _ h2 (fun m hm ho => under_not_prefix hs (hu m hm ho))
    have he := start_closed h1 e1 e3
    refine ⟨{ c with isOpen := true }, ps', st.done sels, some (c.rules, [(k, v.flatten)]), ?_, ⟨rfl, rfl, rfl⟩,
      e2, Or.inl ⟨rfl, ?_, e3⟩, ⟨hr, by simp, ?_⟩, Part.done_ok hne hsel hst, Part.done_kfs _ _, ?_, ?_⟩
    · simp only [RBC.write, he]
    · exact congrArg some hcond.symm
    · intro p hp
      simp only [List.mem_singleton] at hp
      subst hp; exact hd
    · have hl : ({ c with isOpen := true } : Ctx).writePadding = indent (c.rules.length + 1) := by
        rw [Ctx.writePadding, pad_eq]
        show indent c.conditions.length = _
        rw [hcond]; simp
      rw [Part.done_text]
      simp only [RBC.write, he, hl, Part.text, hcond]
      simp [body, layout]
    · rw [Part.done_sem]
      simp [Part.sem, declsIn, hs]

theorem not_at {t : Str} (h : CleanAt conditionalNames t) : ¬ c! "@keyframes" <+: t := by
  obtain ⟨n, hn, r, rfl, -⟩ := h
  simp only [conditionalNames, List.mem_cons, List.not_mem_nil, or_false] at hn
  rcases hn with rfl | rfl | rfl <;> simp

theorem at_head {ns : List Str} (hns : ∀ n ∈ ns, n.head? = some '@') {t : Str} (h : CleanAt ns t) :
    t.head? = some '@' := by
  obtain ⟨n, hn, r, rfl, -⟩ := h
  have := hns n hn
  cases n with
  | nil => cases this
  | cons a b => simpa using this

theorem conditional_head : ∀ n ∈ conditionalNames, n.head? = some '@' := by decide

mutual
theorem item_wrote {P : Str → Prop} {sels : List Str} (hne : sels ≠ []) (hsel : ∀ x ∈ sels, P x)
    (hat : (header sels).head? ≠ some '@') (sel : Str → Str) (cu : Str) :
    ∀ (x : RBC) (c : Ctx) (ps : List Ctx) (st : Part), CleanItem x →
    c.selector = some (header sels) → (∀ r ∈ c.rules, CleanAt conditionalNames r) →
    Match (c :: ps) (Part.path (header sels) st) → st.Ok →
    (∀ m ∈ ps, m.isOpen = true → Under (header sels) c m) →
    Wrote P sels c ps st (RBC.write x (c :: ps)) (declsIn sel cu c.rules c.selector x) ∧
      keyframesIn sel cu c.rules c.selector x = []
  | .attr k v, c, ps, st, hx, hs, hr, hm, hst, hu => by
    cases hx with
    | attr _ _ hd => exact ⟨attr_wrote hne hsel hd hs hr hm hst hu sel cu, rfl⟩
  | .block _ _, c, ps, st, hx, hs, hr, hm, hst, hu => by cases hx
  | .rule cond content, c, ps, st, hx, hs, hr, hm, hst, hu => by
    cases hx with
    | rule _ _ hc hcontent =>
      have hk := not_at hc
      have hk' : ¬ Str.startsWith (c! "@keyframes") cond.flatten = true :=
        fun h => hk (List.isPrefixOf_iff_prefix.1 h)
      have hcσ : cond.flatten ≠ header sels := by
        intro h
        have := at_head conditional_head hc
        rw [h] at this
        exact hat this
      have hu1 : ∀ m ∈ c :: ps, m.isOpen = true →
          Under (header sels) (c.withRuleCondition cond.flatten) m := by
        intro m hm ho
        rcases List.mem_cons.1 hm with rfl | hm
        · exact ⟨hs, cond.flatten, [], rfl, hcσ⟩
        · obtain ⟨h1, x, t, h2, h3⟩ := hu m hm ho
          exact ⟨h1, x, t ++ [cond.flatten], by simp [Ctx.withRuleCondition, h2], h3⟩
      obtain ⟨⟨c1, ps1, gs, st1, e1, e2, e3, e4, e5, e6, e7, e8, e9⟩, e10⟩ :=
        items_wrote hne hsel hat sel cu content (c.withRuleCondition cond.flatten) (c :: ps) st hcontent hs
          (by
            intro r hr'
            simp only [Ctx.withRuleCondition, List.mem_append, List.mem_singleton] at hr'
            rcases hr' with hr' | rfl
            · exact hr r hr'
            · exact hc)
          (Or.inr ⟨rfl, hm⟩) hst hu1
      cases e3 with
      | @cons _ c2 _ ps2 hc2 hps2 =>
      refine ⟨?_, ?_⟩
      · simp only [RBC.write, declsIn]
        rw [if_neg hk']
        simp only [List.nil_append]
        rw [e1]
        simp only [Ctx.finishChain]
        have e9' : st.sem (header sels) ++ declsInAll sel cu (c.rules ++ [cond.flatten]) c.selector content =
            gs.flatMap Group.sem ++ st1.sem (header sels) := e9
        rcases e4 with ⟨h1, h2, h3⟩ | ⟨h1, h2⟩
        · refine ⟨c2, ps2, gs ++ st1.done sels, none, rfl, hc2.same, hps2, allClosed_match h3, trivial, ?_, ?_, ?_, ?_⟩
          · intro g hg
            rcases List.mem_append.1 hg with hg | hg
            · exact e6 g hg
            · exact Part.done_ok hne hsel e5 g hg
          · rw [List.flatMap_append, e7, Part.done_kfs]; rfl
          · rw [finish_open h1 h3, List.flatMap_append, Part.done_text, h2, closeText,
              ← List.append_assoc, ← List.append_assoc, e8]
            simp [Part.text]
          · rw [List.flatMap_append, Part.done_sem, e9']
            simp [Part.sem]
        · refine ⟨c2, ps2, gs, st1, rfl, hc2.same, hps2, h2, e5, e6, e7, ?_, e9'⟩
          rw [← e8]
          simp [Ctx.finish, h1]
      · simp only [keyframesIn, if_neg hk, List.nil_append]
        exact e10
theorem items_wrote {P : Str → Prop} {sels : List Str} (hne : sels ≠ []) (hsel : ∀ x ∈ sels, P x)
    (hat : (header sels).head? ≠ some '@') (sel : Str → Str) (cu : Str) :
    ∀ (xs : List RBC) (c : Ctx) (ps : List Ctx) (st : Part), (∀ x ∈ xs, CleanItem x) →
    c.selector = some (header sels) → (∀ r ∈ c.rules, CleanAt conditionalNames r) →
    Match (c :: ps) (Part.path (header sels) st) → st.Ok →
    (∀ m ∈ ps, m.isOpen = true → Under (header sels) c m) →
    Wrote P sels c ps st (RBC.writes xs (c :: ps)) (declsInAll sel cu c.rules c.selector xs) ∧
      keyframesInAll sel cu c.rules c.selector xs = []
  | [], c, ps, st, _, hs, hr, hm, hst, hu =>
    ⟨⟨c, ps, [], st, rfl, ⟨rfl, rfl, rfl⟩, .refl _, hm, hst, by simp, rfl, by simp [RBC.writes],
      by simp [declsInAll]⟩, rfl⟩
  | x :: xs, c, ps, st, hx, hs, hr, hm, hst, hu => by
    obtain ⟨⟨c1, ps1, gs1, st1, a1, a2, a3, a4, a5, a6, a7, a8, a9⟩, a10⟩ :=
      item_wrote hne hsel hat sel cu x c ps st (hx x (by simp)) hs hr hm hst hu
    obtain ⟨⟨c2, ps2, gs2, st2, b1, b2, b3, b4, b5, b6, b7, b8, b9⟩, b10⟩ :=
      items_wrote hne hsel hat sel cu xs c1 ps1 st1 (fun y hy => hx y (by simp [hy]))
        (by rw [a2.2.2]; exact hs) (by rw [a2.2.1]; exact hr) a4 a5 (by
          intro m' hm' ho
          obtain ⟨m, hm, hc⟩ := a3.mem m' hm'
          obtain ⟨h1, x, t, h2, h3⟩ := hu m hm (hc.2.2.2 ho)
          exact ⟨by rw [hc.2.2.1]; exact h1, x, t, by rw [a2.2.1, hc.2.1]; exact h2, h3⟩)
    rw [a2.2.1, a2.2.2] at b9 b10
    refine ⟨⟨c2, ps2, gs1 ++ gs2, st2, ?_, ⟨b2.1.trans a2.1, b2.2.1.trans a2.2.1, b2.2.2.trans a2.2.2⟩,
      a3.trans b3, b4, b5, ?_, ?_, ?_, ?_⟩, ?_⟩
    · simp only [RBC.writes, a1, b1]
    · intro g hg
      rcases List.mem_append.1 hg with hg | hg
      · exact a6 g hg
      · exact b6 g hg
    · rw [List.flatMap_append, a7, b7]; rfl
    · simp only [RBC.writes, a1]
      rw [← List.append_assoc, a8, List.append_assoc, b8, List.flatMap_append, List.append_assoc]
    · simp only [declsInAll]
      rw [← List.append_assoc, a9, List.append_assoc, b9, List.flatMap_append, List.append_assoc]
    · simp only [keyframesInAll, a10, b10, List.append_nil]
end

/-! ## Frames -/

/-- The declarations of a list. -/
def attrsOf : List RBC → List (Str × Str)
  | .attr k v :: xs => (k, v.flatten) :: attrsOf xs
  | _ :: xs => attrsOf xs
  | [] => []

/-- The frames of a list that are printed. -/
def framesOf : List RBC → List Frame
  | .rule cond (y :: ys) :: xs => (cond.flatten, attrsOf (y :: ys)) :: framesOf xs
  | _ :: xs => framesOf xs
  | [] => []

theorem attrs_open {c : Ctx} {ps : List Ctx} (h : c.isOpen = true) (sel : Str → Str) (cu : Str) :
    ∀ xs : List RBC, (∀ y ∈ xs, ∃ k v, y = .attr k v ∧ CleanDecl k v.flatten) →
    ∃ D, RBC.writes xs (c :: ps) = (c :: ps, body c.conditions.length D) ∧
      (∀ p ∈ D, CleanDecl p.1 p.2) ∧
      declsInAll sel cu c.rules c.selector xs = D.map (fun p => ⟨c.conditions, p.1, p.2⟩) ∧
      D = attrsOf xs
  | [], _ => ⟨[], rfl, by simp, rfl, rfl⟩
  | y :: xs, hy => by
    obtain ⟨k, v, rfl, hd⟩ := hy y (by simp)
    obtain ⟨D, e1, e2, e3, e5⟩ := attrs_open h sel cu xs (fun z hz => hy z (by simp [hz]))
    have hc : ({ c with isOpen := true } : Ctx) = c := by
      cases c
      simp only at h
      rw [h]
    refine ⟨(k, v.flatten) :: D, ?_, ?_, ?_, by rw [e5]; rfl⟩
    · simp only [RBC.writes, RBC.write, Ctx.start, h, if_true]
      rw [hc, e1]
      simp [body, layout, Ctx.writePadding, pad_eq]
    · intro p hp
      rcases List.mem_cons.1 hp with rfl | hp
      · exact hd
      · exact e2 p hp
    · simp only [declsInAll, declsIn, e3]
      simp [Ctx.conditions]

theorem head_of_sel {s : Str} (h : SelText s) : s.head? ≠ some '@' := by
  intro hh
  cases s with
  | nil => cases hh
  | cons c s =>
    simp only [List.head?_cons, Option.some.injEq] at hh
    subst hh
    simp [SelText, lexRun] at h

theorem join_head {sep : Str} {p : Str} {ps : List Str} (hp : p ≠ []) :
    (Str.join sep (p :: ps)).head? = p.head? := by
  cases p with
  | nil => exact absurd rfl hp
  | cons c p => cases ps <;> simp [Str.join]

theorem frame_head {t : Str} (h : CleanFrame t) : t.head? ≠ some '@' := by
  obtain ⟨ps, hne, hp, rfl, -⟩ := h
  cases ps with
  | nil => exact absurd rfl hne
  | cons p ps =>
    obtain ⟨h1, h2⟩ := hp p (by simp)
    rw [join_head]
    · exact head_of_sel h1
    · rintro rfl; obtain ⟨c, hc, -⟩ := h2; cases hc

theorem frames_wrote {c : Ctx} {ps : List Ctx} (ho : c.isOpen = true) (hp : AllClosed ps)
    (hs : c.selector = none) (sel : Str → Str) (cu : Str) :
    ∀ xs : List RBC, (∀ y ∈ xs, CleanFrameRule y) →
    ∃ F : List Frame, RBC.writes xs (c :: ps) = (c :: ps, F.flatMap (frameText c.conditions.length)) ∧
      (∀ f ∈ F, CleanFrame f.1 ∧ f.2 ≠ [] ∧ ∀ p ∈ f.2, CleanDecl p.1 p.2) ∧
      declsInAll sel cu c.rules c.selector xs =
        F.flatMap (fun f => f.2.map (fun p => ⟨c.conditions ++ [f.1], p.1, p.2⟩)) ∧
      keyframesInAll sel cu c.rules c.selector xs = [] ∧ F = framesOf xs
  | [], _ => ⟨[], rfl, by simp, rfl, rfl, rfl⟩
  | y :: xs, hy => by
    obtain ⟨F, e1, e2, e3, e4, e5⟩ := frames_wrote ho hp hs sel cu xs (fun z hz => hy z (by simp [hz]))
    obtain ⟨cond, content, rfl, hf, hcont⟩ := hy y (by simp)
    have hk : ¬ c! "@keyframes" <+: cond.flatten := by
      intro h
      obtain ⟨t, ht⟩ := h
      exact frame_head hf (by rw [← ht]; rfl)
    have hk' : ¬ Str.startsWith (c! "@keyframes") cond.flatten = true :=
      fun h => hk (List.isPrefixOf_iff_prefix.1 h)
    have hcc : c.conditions = c.rules := by simp [Ctx.conditions, hs]
    let f := c.withRuleCondition cond.flatten
    have hfc : f.conditions = c.conditions ++ [cond.flatten] := by
      simp [f, Ctx.withRuleCondition, Ctx.conditions, hs]
    have hcur : cur (c :: ps) = c.conditions := cur_open ho
    have hpre : cur (c :: ps) <+: f.conditions := by
      rw [hcur, hfc]; exact List.prefix_append _ _
    cases content with
    | nil =>
      refine ⟨F, ?_, e2, ?_, ?_, by rw [e5]; rfl⟩
      · simp only [RBC.writes, RBC.write, if_neg hk', Ctx.finishChain, Ctx.finish,
          Ctx.withRuleCondition, Bool.false_eq_true, if_false, List.tail_cons, e1]
        simp
      · simp only [declsInAll, declsIn, e3, List.nil_append]
      · simp only [keyframesInAll, keyframesIn, if_neg hk, e4, List.nil_append]
    | cons a rest =>
      obtain ⟨D, d1, d2, d3, d5⟩ := attrs_open (c := { f with isOpen := true }) (ps := c :: ps) rfl sel cu (a :: rest) hcont
      have hstart : Ctx.start (f :: c :: ps) =
          ({ f with isOpen := true } :: c :: ps, opens c.conditions.length [cond.flatten]) := by
        have hd : (Ctx.differConditions f (c :: ps)).isEmpty = true := by
          simp only [Ctx.differConditions, List.isEmpty_iff, List.drop_eq_nil_iff]
          exact Nat.le_of_eq (common_length hpre).symm
        have hclose : Ctx.closeUntilCommonParent f (c :: ps) = (c :: ps, []) := by
          simp only [Ctx.closeUntilCommonParent, ho, if_true, hd]
        have hfo : f.isOpen = false := rfl
        simp only [Ctx.start, hfo, Bool.false_eq_true, if_false, hclose, List.nil_append]
        rw [unique_eq hpre, startLoop_eq hpre, hcur, hfc]
        simp
      -- the first attribute opens the frame
      have hw : RBC.writes (a :: rest) (f :: c :: ps) =
          ({ f with isOpen := true } :: c :: ps,
            opens c.conditions.length [cond.flatten] ++ body (c.conditions.length + 1) D) := by
        obtain ⟨k, v, rfl, -⟩ := hcont a (by simp)
        have hd1 := d1
        simp only [RBC.writes, RBC.write] at hd1 ⊢
        rw [hstart]
        have hs2 : Ctx.start ({ f with isOpen := true } :: c :: ps) =
            ({ f with isOpen := true } :: c :: ps, []) := by simp [Ctx.start]
        rw [hs2] at hd1
        simp only at hd1 ⊢
        have hl : ({ f with isOpen := true } : Ctx).conditions.length = c.conditions.length + 1 := by
          show f.conditions.length = _
          rw [hfc]; simp
        rw [hl] at hd1
        have h1 := congrArg Prod.fst hd1
        have h2 := congrArg Prod.snd hd1
        simp only at h1 h2
        rw [h1, ← h2]
        simp
      have hfin : (Ctx.finish { f with isOpen := true } (c :: ps)).2 = closes (c.conditions.length + 1) 1 := by
        simp only [Ctx.finish, if_true]
        have hpre' : cur (c :: ps) <+: ({ f with isOpen := true } : Ctx).conditions := hpre
        rw [finishLoop_eq hpre', unique_eq hpre', hcur]
        show closes (c.conditions.length + (f.conditions.drop c.conditions.length).length)
          (f.conditions.drop c.conditions.length).length = _
        rw [hfc]
        simp
      have hD : D ≠ [] := by
        rintro rfl
        obtain ⟨k, v, rfl, -⟩ := hcont a (by simp)
        simp [declsInAll, declsIn] at d3
      refine ⟨(cond.flatten, D) :: F, ?_, ?_, ?_, ?_, by rw [e5, d5]; rfl⟩
      · rw [RBC.writes, RBC.write]
        simp only [if_neg hk']
        rw [show c.withRuleCondition cond.flatten = f from rfl, hw]
        simp only [Ctx.finishChain, List.tail_cons, e1]
        rw [hfin]
        simp [frameText]
      · intro g hg
        rcases List.mem_cons.1 hg with rfl | hg
        · exact ⟨hf, hD, d2⟩
        · exact e2 g hg
      · rw [declsInAll, declsIn, e3]
        have d3' : declsInAll sel cu (c.rules ++ [cond.flatten]) c.selector (a :: rest) =
          D.map (fun p => ⟨f.conditions, p.1, p.2⟩) := d3
        rw [d3', hfc]
        simp
      · rw [keyframesInAll, keyframesIn, if_neg hk, e4]
        have : ∀ (ys : List RBC) (R : List Str) (s : Option Str),
            (∀ y ∈ ys, ∃ k v, y = .attr k v ∧ CleanDecl k v.flatten) → keyframesInAll sel cu R s ys = [] := by
          intro ys
          induction ys with
          | nil => intros; rfl
          | cons z zs ih =>
            intro R s h
            obtain ⟨k, v, rfl, -⟩ := h z (by simp)
            simp only [keyframesInAll, keyframesIn, List.nil_append]
            exact ih R s (fun w hw => h w (by simp [hw]))
        rw [this _ _ _ hcont]
        rfl

end GroupsP
