import Verif.Proofs.Selector
import Verif.Spec.Template

/-!
# Rendering does not look at the class name

The rendering of a sheet is followed for all class names of a set `S` at once: the
conditions of the contexts are templates, and where the code compares two of them the
answer is the same for every class name in the set.
-/

namespace Template

open Spec

/-- A text without holes. -/
def lit (s : Str) : Tpl := s.map some

theorem fill_append (c : Str) (a b : Tpl) : fill c (a ++ b) = fill c a ++ fill c b := by simp [fill]

theorem fill_lit (c : Str) : ∀ s : Str, fill c (lit s) = s
  | [] => rfl
  | a :: s => by
    have := fill_lit c s
    simp only [fill, lit, List.map_cons, List.flatMap_cons] at this ⊢
    rw [this]; rfl

theorem fill_none (c : Str) (t : Tpl) : fill c (none :: t) = '.' :: (c ++ fill c t) := by simp [fill]

theorem fill_some (c : Str) (a : Char) (t : Tpl) : fill c (some a :: t) = a :: fill c t := by simp [fill]

/-- The text of the class does not occur outside the holes. -/
def Clean (c : Str) (t : Tpl) : Prop := ¬ lit ('.' :: c) <:+: t

theorem lit_prefix {c : Str} : ∀ {p : Str} {x : Tpl}, '.' ∉ p → p <+: fill c x → lit p <+: x
  | [], _, _, _ => by simp [lit]
  | a :: p, [], _, h => by simp [fill] at h
  | a :: p, none :: x, hp, h => by
    rw [fill_none, List.cons_prefix_cons] at h
    simp [h.1] at hp
  | a :: p, some b :: x, hp, h => by
    simp only [List.mem_cons, not_or] at hp
    rw [fill_some, List.cons_prefix_cons] at h
    have := lit_prefix hp.2 h.2
    simp only [lit, List.map_cons, List.cons_prefix_cons]
    exact ⟨by rw [h.1], this⟩

theorem Clean.tail {c : Str} {a : Option Char} {t : Tpl} (h : Clean c (a :: t)) : Clean c t :=
  fun h' => h (List.infix_cons h')

/-- A clean template can be read off its text. -/
theorem fill_inj {c : Str} (hc : '.' ∉ c) : ∀ {a b : Tpl}, Clean c a → Clean c b → fill c a = fill c b → a = b
  | [], [], _, _, _ => rfl
  | [], none :: b, _, _, h => by rw [fill_none] at h; simp [fill] at h
  | [], some _ :: b, _, _, h => by rw [fill_some] at h; simp [fill] at h
  | none :: a, [], _, _, h => by rw [fill_none] at h; simp [fill] at h
  | some _ :: a, [], _, _, h => by rw [fill_some] at h; simp [fill] at h
  | none :: a, none :: b, ha, hb, h => by
    rw [fill_none, fill_none] at h
    simp only [List.cons.injEq, List.append_cancel_left_eq, true_and] at h
    rw [fill_inj hc ha.tail hb.tail h]
  | some x :: a, some y :: b, ha, hb, h => by
    rw [fill_some, fill_some] at h
    simp only [List.cons.injEq] at h
    rw [fill_inj hc ha.tail hb.tail h.2, h.1]
  | none :: a, some y :: b, _, hb, h => by
    exfalso
    rw [fill_none, fill_some] at h
    simp only [List.cons.injEq] at h
    have := lit_prefix (x := b) hc ⟨fill c a, h.2⟩
    apply hb
    refine (List.IsPrefix.isInfix ?_)
    simp only [lit, List.map_cons, List.cons_prefix_cons]
    exact ⟨by rw [h.1], this⟩
  | some y :: b, none :: a, hb, _, h => by
    exfalso
    rw [fill_none, fill_some] at h
    simp only [List.cons.injEq] at h
    have := lit_prefix (x := b) hc ⟨fill c a, h.2.symm⟩
    apply hb
    refine (List.IsPrefix.isInfix ?_)
    simp only [lit, List.map_cons, List.cons_prefix_cons]
    exact ⟨by rw [h.1], this⟩

/-! ## Templates of selectors -/

/-- `&` and `:root` become holes. -/
def expandT : Str → Tpl
  | [] => []
  | '&' :: s => none :: expandT s
  | ':' :: 'r' :: 'o' :: 'o' :: 't' :: s => none :: expandT s
  | c :: s => some c :: expandT s

theorem fill_expandT (c s : Str) : fill c (expandT s) = expand ('.' :: c) s := by
  induction s using expandT.induct with
  | case1 => rfl
  | case2 s ih => rw [expandT, expand, fill_none, ih]; simp
  | case3 s ih => rw [expandT, expand, fill_none, ih]; simp
  | case4 a s h1 h2 ih =>
    rw [expandT, expand, fill_some, ih]
    all_goals first | exact h1 | exact h2

theorem lit_prefix_expandT : ∀ {p s : Str}, lit p <+: expandT s → p <+: s := by
  intro p s
  induction s using expandT.induct generalizing p with
  | case1 =>
    intro h
    cases p with
    | nil => exact List.prefix_refl _
    | cons a p => simp [lit, expandT] at h
  | case2 s ih =>
    intro h
    cases p with
    | nil => exact List.nil_prefix
    | cons a p => rw [expandT] at h; simp [lit] at h
  | case3 s ih =>
    intro h
    cases p with
    | nil => exact List.nil_prefix
    | cons a p => rw [expandT] at h; simp [lit] at h
  | case4 a s h1 h2 ih =>
    intro h
    rw [expandT] at h
    · cases p with
      | nil => exact List.nil_prefix
      | cons b p =>
        simp only [lit, List.map_cons, List.cons_prefix_cons, Option.some.injEq] at h
        rw [List.cons_prefix_cons]
        exact ⟨h.1, ih h.2⟩
    · exact h1
    · exact h2

theorem lit_infix_expandT {a : Char} {p s : Str} : lit (a :: p) <:+: expandT s → (a :: p) <:+: s := by
  induction s using expandT.induct with
  | case1 => intro h; simp [lit, expandT] at h
  | case2 s ih =>
    intro h
    rw [expandT, List.infix_cons_iff] at h
    rcases h with h | h
    · simp [lit] at h
    · exact List.infix_cons (ih h)
  | case3 s ih =>
    intro h
    rw [expandT, List.infix_cons_iff] at h
    rcases h with h | h
    · simp [lit] at h
    · exact List.infix_cons (List.infix_cons (List.infix_cons (List.infix_cons (List.infix_cons (ih h)))))
  | case4 x s h1 h2 ih =>
    intro h
    have h' := h
    rw [expandT, List.infix_cons_iff] at h'
    · rcases h' with h' | h'
      · have hp : lit (a :: p) <+: expandT (x :: s) := by
          rw [expandT]
          · exact h'
          · exact h1
          · exact h2
        exact (lit_prefix_expandT hp).isInfix
      · exact List.infix_cons (ih h')
    · exact h1
    · exact h2

theorem lit_infix {p s : Str} : lit p <:+: lit s → p <:+: s := by
  rintro ⟨x, y, h⟩
  have := congrArg (fill []) h
  rw [fill_append, fill_append, fill_lit, fill_lit] at this
  exact ⟨_, _, this⟩

/-- The template of a selector. -/
def tplSel (s : Str) : Tpl :=
  if '&' ∈ s ∨ c! ":root" <:+: s then expandT s
  else if s.head? = some ':' then none :: lit s
  else none :: some ' ' :: lit s

theorem fill_tplSel (c s : Str) : fill c (tplSel s) = scopeSelector (some c) s := by
  simp only [tplSel, scopeSelector]
  split
  · exact fill_expandT c s
  · split
    · rw [fill_none, fill_lit]; simp
    · rw [fill_none, fill_some, fill_lit]; simp

theorem clean_lit {c s : Str} (h : ¬ ('.' :: c) <:+: s) : Clean c (lit s) := fun h' => h (lit_infix h')

theorem Clean.cons {c : Str} {a : Option Char} {t : Tpl} (h : Clean c t) (ha : a ≠ some '.') : Clean c (a :: t) := by
  intro h'
  rw [List.infix_cons_iff] at h'
  rcases h' with h' | h'
  · simp only [lit, List.map_cons, List.cons_prefix_cons] at h'
    exact ha h'.1.symm
  · exact h h'

theorem clean_tplSel {c s : Str} (h : ¬ ('.' :: c) <:+: s) : Clean c (tplSel s) := by
  simp only [tplSel]
  split
  · exact fun h' => h (lit_infix_expandT h')
  · split
    · exact (clean_lit h).cons (by simp)
    · exact ((clean_lit h).cons (by simp)).cons (by simp)

theorem prefix_sep {p : Tpl} {x : Option Char} : ∀ {a b : Tpl}, x ∉ p → p <+: a ++ x :: b → p <+: a
  | [], b, hx, h => by
    cases p with
    | nil => exact List.nil_prefix
    | cons y p =>
      rw [List.nil_append, List.cons_prefix_cons] at h
      simp [h.1] at hx
  | z :: a, b, hx, h => by
    cases p with
    | nil => exact List.nil_prefix
    | cons y p =>
      rw [List.cons_append, List.cons_prefix_cons] at h
      rw [List.cons_prefix_cons]
      exact ⟨h.1, prefix_sep (fun h' => hx (by simp [h'])) h.2⟩

theorem infix_sep {p : Tpl} {x : Option Char} (hx : x ∉ p) (hp : p ≠ []) : ∀ {a b : Tpl}, p <:+: a ++ x :: b → p <:+: a ∨ p <:+: b
  | [], b, h => by
    rw [List.nil_append, List.infix_cons_iff] at h
    rcases h with h | h
    · exact Or.inl (prefix_sep (a := []) hx h).isInfix
    · exact Or.inr h
  | z :: a, b, h => by
    rw [List.cons_append, List.infix_cons_iff] at h
    rcases h with h | h
    · have := prefix_sep (a := z :: a) (b := b) hx (by rw [List.cons_append]; exact h)
      exact Or.inl this.isInfix
    · rcases infix_sep hx hp h with h | h
      · exact Or.inl (List.infix_cons h)
      · exact Or.inr h

theorem Clean.sep {c : Str} {a b : Tpl} (hc : ',' ∉ c) (ha : Clean c a) (hb : Clean c b) : Clean c (a ++ some ',' :: b) := by
  intro h
  rcases infix_sep (by simp [lit, hc]) (by simp [lit]) h with h | h
  · exact ha h
  · exact hb h

/-! ## Sets of class names -/

/-- The class names of the set have no `.`, `:` and `,`. -/
def Plain (S : Str → Prop) : Prop := ∀ c, S c → '.' ∉ c ∧ ':' ∉ c ∧ ',' ∉ c

/-- The template is clean for all class names. -/
def Good (S : Str → Prop) (t : Tpl) : Prop := ∀ c, S c → Clean c t

/-- A text that is a template for all class names of the set. -/
def IsTpl (S : Str → Prop) (f : Str → Str) : Prop := ∃ t, ∀ c, S c → f c = fill c t

variable {S : Str → Prop}

theorem IsTpl.lit (s : Str) : IsTpl S (fun _ => s) := ⟨Template.lit s, fun c _ => (fill_lit c s).symm⟩

theorem IsTpl.append {f g : Str → Str} (hf : IsTpl S f) (hg : IsTpl S g) : IsTpl S (fun c => f c ++ g c) := by
  obtain ⟨a, ha⟩ := hf
  obtain ⟨b, hb⟩ := hg
  exact ⟨a ++ b, fun c h => by rw [fill_append, ← ha c h, ← hb c h]⟩

theorem IsTpl.congr {f g : Str → Str} (hf : IsTpl S f) (h : ∀ c, S c → g c = f c) : IsTpl S g := by
  obtain ⟨a, ha⟩ := hf
  exact ⟨a, fun c hc => by rw [h c hc, ha c hc]⟩

/-- The condition of a block. -/
theorem condStr_tpl (hS : Plain S) (cond : List Selector)
    (hf : ∀ c, S c → ∀ h ∈ cond.map List.flatten, ¬ ('.' :: c) <:+: h) :
    ∃ t : Option Tpl, (∀ x ∈ t, Good S x) ∧ ∀ c, S c → condStr (some c) cond = t.map (fill c) := by
  cases cond with
  | nil => exact ⟨none, by simp, fun c _ => rfl⟩
  | cons a cond =>
    have h : ∀ (cond : List Selector) (a : Selector), (∀ c, S c → ∀ h ∈ (a :: cond).map List.flatten, ¬ ('.' :: c) <:+: h) →
        ∃ t : Tpl, Good S t ∧ ∀ c, S c → Str.join (c! ", ") ((a :: cond).map (Selector.write (some c))) = fill c t := by
      intro cond
      induction cond with
      | nil =>
        intro a hf
        refine ⟨tplSel a.flatten, fun c hc => clean_tplSel (hf c hc _ (by simp)), fun c hc => ?_⟩
        simp only [List.map_cons, List.map_nil, Str.join]
        rw [SelectorP.write_spec _ (by rintro _ ⟨⟩; exact (hS c hc).2.1), fill_tplSel]
      | cons b cond ih =>
        intro a hf
        obtain ⟨t, h1, h2⟩ := ih b (fun c hc h hh => hf c hc h (List.mem_cons_of_mem _ hh))
        refine ⟨tplSel a.flatten ++ some ',' :: some ' ' :: t, fun c hc => ?_, fun c hc => ?_⟩
        · exact Clean.sep (hS c hc).2.2 (clean_tplSel (hf c hc _ (by simp))) ((h1 c hc).cons (by simp))
        · have := h2 c hc
          simp only [List.map_cons] at this ⊢
          rw [Str.join, this, fill_append, fill_some, fill_some, fill_tplSel,
            SelectorP.write_spec _ (by rintro _ ⟨⟩; exact (hS c hc).2.1)]
          · simp
          · simp
    obtain ⟨t, h1, h2⟩ := h cond a hf
    exact ⟨some t, by simpa using h1, fun c hc => by rw [condStr, if_neg (by simp), h2 c hc]; rfl⟩

/-! ## Contexts -/

/-- A context whose conditions are templates. -/
structure TCtx where
  rules : List Tpl
  selector : Option Tpl
  isOpen : Bool

/-- The context for a class name. -/
def TCtx.fill (c : Str) (x : TCtx) : Ctx :=
  { className := some c, rules := x.rules.map (Template.fill c), selector := x.selector.map (Template.fill c), isOpen := x.isOpen }

/-- All conditions. -/
def TCtx.conds (x : TCtx) : List Tpl := x.rules ++ x.selector.toList

/-- All conditions are clean. -/
def TCtx.Good (S : Str → Prop) (x : TCtx) : Prop := ∀ t ∈ x.conds, Template.Good S t

theorem conditions_fill (c : Str) (x : TCtx) : (x.fill c).conditions = x.conds.map (fill c) := by
  cases h : x.selector <;> simp [Ctx.conditions, TCtx.fill, TCtx.conds, h]

/-- The chain for a class name. -/
def chain (c : Str) (xs : List TCtx) : List Ctx := xs.map (TCtx.fill c)

theorem openParent_fill (c : Str) : ∀ xs : List TCtx, Ctx.openParent (chain c xs) = (xs.find? TCtx.isOpen).map (TCtx.fill c)
  | [] => rfl
  | x :: xs => by
    simp only [chain, List.map_cons, Ctx.openParent, List.find?_cons]
    cases h : x.isOpen
    · simp only [TCtx.fill, h, Bool.false_eq_true, if_false]
      exact openParent_fill c xs
    · simp [TCtx.fill, h]

/-- The conditions of the open parent. -/
def opc (xs : List TCtx) : List Tpl := match xs.find? TCtx.isOpen with
  | some m => m.conds
  | none => []

theorem opc_fill (c : Str) (xs : List TCtx) : Ctx.openParentConditions (chain c xs) = (opc xs).map (fill c) := by
  simp only [Ctx.openParentConditions, openParent_fill, opc]
  cases xs.find? TCtx.isOpen with
  | none => rfl
  | some m => exact conditions_fill c m

theorem opc_good {xs : List TCtx} (h : ∀ x ∈ xs, x.Good S) : ∀ t ∈ opc xs, Good S t := by
  simp only [opc]
  cases hf : xs.find? TCtx.isOpen with
  | none => simp
  | some m => exact h m (List.mem_of_find?_eq_some hf)

theorem common_fill (hS : Plain S) : ∀ (a b : List Tpl), (∀ t ∈ a, Good S t) → (∀ t ∈ b, Good S t) →
    ∃ n, ∀ c, S c → (((a.map (fill c)).zip (b.map (fill c))).filterMap
      (fun (m1, m2) => if m1 = m2 then some m1 else none)).length = n
  | [], b, _, _ => ⟨0, fun c _ => by simp⟩
  | _ :: _, [], _, _ => ⟨0, fun c _ => by simp⟩
  | x :: a, y :: b, ha, hb => by
    obtain ⟨n, hn⟩ := common_fill hS a b (fun t ht => ha t (by simp [ht])) (fun t ht => hb t (by simp [ht]))
    by_cases h : x = y
    · refine ⟨n + 1, fun c hc => ?_⟩
      subst h
      simp only [List.map_cons, List.zip_cons_cons, List.filterMap_cons, if_true, List.length_cons, hn c hc]
    · refine ⟨n, fun c hc => ?_⟩
      have : fill c x ≠ fill c y := fun h' => h (fill_inj (hS c hc).1 (ha x (by simp) c hc) (hb y (by simp) c hc) h')
      simp only [List.map_cons, List.zip_cons_cons, List.filterMap_cons, if_neg this, hn c hc]

theorem common_len (hS : Plain S) {x : TCtx} {xs : List TCtx} (hx : x.Good S) (hxs : ∀ y ∈ xs, y.Good S) :
    ∃ n, ∀ c, S c → (Ctx.commonConditions (x.fill c) (chain c xs)).length = n := by
  simp only [Ctx.commonConditions, opc_fill, conditions_fill]
  exact common_fill hS _ _ (opc_good hxs) hx

theorem finishLoop_tpl {x : TCtx} {xs : List TCtx} {n : Nat}
    (hn : ∀ c, S c → (Ctx.commonConditions (x.fill c) (chain c xs)).length = n) :
    ∀ m, IsTpl S (fun c => Ctx.finishLoop (x.fill c) (chain c xs) m)
  | 0 => IsTpl.lit []
  | m + 1 => by
    have := finishLoop_tpl hn m
    refine IsTpl.congr (IsTpl.append (IsTpl.lit (Ctx.writePaddingImpl n ++ Ctx.writePaddingImpl m ++ c! "}\n")) this) ?_
    intro c hc
    simp only [Ctx.finishLoop, Ctx.writeMinPadding, hn c hc]

theorem startLoop_tpl {x : TCtx} {xs : List TCtx} {n : Nat}
    (hn : ∀ c, S c → (Ctx.commonConditions (x.fill c) (chain c xs)).length = n) :
    ∀ (l : List Tpl) (i : Nat), IsTpl S (fun c => Ctx.startLoop (x.fill c) (chain c xs) i (l.map (fill c)))
  | [], _ => IsTpl.lit []
  | t :: l, i => by
    have := startLoop_tpl hn l (i + 1)
    refine IsTpl.congr (IsTpl.append (IsTpl.append (IsTpl.append (IsTpl.lit (Ctx.writePaddingImpl n ++ Ctx.writePaddingImpl i))
      ⟨t, fun c _ => rfl⟩) (IsTpl.lit (c! " {\n"))) this) ?_
    intro c hc
    simp only [List.map_cons, Ctx.startLoop, Ctx.writeMinPadding, hn c hc]

theorem finish_tpl (hS : Plain S) {x : TCtx} {xs : List TCtx} (hx : x.Good S) (hxs : ∀ y ∈ xs, y.Good S) :
    (∀ c, (Ctx.finish (x.fill c) (chain c xs)).1 = TCtx.fill c { x with isOpen := false }) ∧
      IsTpl S (fun c => (Ctx.finish (x.fill c) (chain c xs)).2) := by
  refine ⟨fun c => rfl, ?_⟩
  obtain ⟨n, hn⟩ := common_len hS hx hxs
  simp only [Ctx.finish]
  cases ho : x.isOpen
  · exact IsTpl.congr (IsTpl.lit []) (fun c _ => by simp [TCtx.fill, ho])
  · refine IsTpl.congr (finishLoop_tpl hn (x.conds.length - n)) (fun c hc => ?_)
    have h1 : (x.fill c).isOpen = true := ho
    rw [if_pos h1, Ctx.uniqueConditions, List.length_drop, conditions_fill, List.length_map, hn c hc]

/-- What an operation on a chain does, for all class names at once. -/
def Step (S : Str → Prop) (f : Str → List Ctx × Str) (ys : List TCtx) : Prop :=
  (∀ y ∈ ys, y.Good S) ∧ (∀ c, S c → (f c).1 = chain c ys) ∧ IsTpl S (fun c => (f c).2)

theorem closed_good {x : TCtx} (b : Bool) (h : x.Good S) : TCtx.Good S { x with isOpen := b } := h

theorem close_tpl (hS : Plain S) {x : TCtx} (hx : x.Good S) : ∀ (xs : List TCtx), (∀ y ∈ xs, y.Good S) →
    ∃ ys, Step S (fun c => Ctx.closeUntilCommonParent (x.fill c) (chain c xs)) ys
  | [], _ => ⟨[], by simp, fun _ _ => rfl, IsTpl.lit []⟩
  | m :: xs, hxs => by
    have hm := hxs m (by simp)
    have hxs' : ∀ y ∈ xs, y.Good S := fun y hy => hxs y (by simp [hy])
    obtain ⟨ys, h1, h2, h3⟩ := close_tpl hS hx xs hxs'
    cases ho : m.isOpen
    · refine ⟨m :: ys, ?_, ?_, ?_⟩
      · intro y hy
        rcases List.mem_cons.1 hy with rfl | hy
        · exact hm
        · exact h1 y hy
      · intro c hc
        have : (m.fill c).isOpen = false := ho
        simp only [chain, List.map_cons, Ctx.closeUntilCommonParent, this, Bool.false_eq_true, if_false]
        have := h2 c hc
        simp only [chain] at this
        rw [this]
      · refine IsTpl.congr h3 (fun c hc => ?_)
        have : (m.fill c).isOpen = false := ho
        simp only [chain, List.map_cons, Ctx.closeUntilCommonParent, this, Bool.false_eq_true, if_false]
    · obtain ⟨n, hn⟩ := common_len hS hx hxs
      have hd : ∀ c, S c → (Ctx.differConditions (x.fill c) (chain c (m :: xs))).isEmpty = decide ((opc (m :: xs)).length ≤ n) := by
        intro c hc
        rw [Ctx.differConditions, hn c hc, opc_fill, Bool.eq_iff_iff]
        simp
      obtain ⟨-, f2⟩ := finish_tpl hS hm hxs'
      by_cases hle : (opc (m :: xs)).length ≤ n
      · refine ⟨m :: xs, hxs, ?_, ?_⟩
        · intro c hc
          have h := hd c hc
          rw [decide_eq_true hle] at h
          have ho' : (m.fill c).isOpen = true := ho
          simp only [chain, List.map_cons] at h ⊢
          rw [Ctx.closeUntilCommonParent, if_pos ho', if_pos h]
        · refine IsTpl.congr (IsTpl.lit []) (fun c hc => ?_)
          have h := hd c hc
          rw [decide_eq_true hle] at h
          have ho' : (m.fill c).isOpen = true := ho
          simp only [chain, List.map_cons] at h ⊢
          rw [Ctx.closeUntilCommonParent, if_pos ho', if_pos h]
      · have e : ∀ c, S c → Ctx.closeUntilCommonParent (x.fill c) (chain c (m :: xs)) =
            (TCtx.fill c { m with isOpen := false } :: (Ctx.closeUntilCommonParent (x.fill c) (chain c xs)).1,
              (Ctx.finish (m.fill c) (chain c xs)).2 ++ (Ctx.closeUntilCommonParent (x.fill c) (chain c xs)).2) := by
          intro c hc
          have h := hd c hc
          rw [decide_eq_false hle] at h
          have ho' : (m.fill c).isOpen = true := ho
          simp only [chain, List.map_cons] at h ⊢
          rw [Ctx.closeUntilCommonParent, if_pos ho', if_neg (by rw [h]; simp)]
          rfl
        refine ⟨{ m with isOpen := false } :: ys, ?_, ?_, ?_⟩
        · intro y hy
          rcases List.mem_cons.1 hy with rfl | hy
          · exact hm
          · exact h1 y hy
        · intro c hc
          have h2' := h2 c hc
          dsimp only at h2' ⊢
          rw [e c hc, h2']; rfl
        · exact IsTpl.congr (IsTpl.append f2 h3) (fun c hc => by dsimp only; rw [e c hc])

theorem start_tpl (hS : Plain S) {x : TCtx} {xs : List TCtx} (hx : x.Good S) (h : ∀ y ∈ xs, y.Good S) :
    ∃ ys, Step S (fun c => Ctx.start (chain c (x :: xs))) ({ x with isOpen := true } :: ys) := by
  cases ho : x.isOpen
  · obtain ⟨ys, h1, h2, h3⟩ := close_tpl hS hx xs h
    obtain ⟨n, hn⟩ := common_len hS hx h1
    have e : ∀ c, S c → Ctx.start (chain c (x :: xs)) = (TCtx.fill c { x with isOpen := true } :: chain c ys,
        (Ctx.closeUntilCommonParent (x.fill c) (chain c xs)).2 ++
          Ctx.startLoop (x.fill c) (chain c ys) 0 ((x.conds.drop n).map (fill c))) := by
      intro c hc
      have ho' : (x.fill c).isOpen = false := ho
      have := h2 c hc
      have hu : Ctx.uniqueConditions (x.fill c) (chain c ys) = (x.conds.drop n).map (fill c) := by
        rw [Ctx.uniqueConditions, hn c hc, conditions_fill, List.map_drop]
      rw [← hu]
      simp only [chain, List.map_cons] at this ⊢
      rw [Ctx.start, if_neg (by rw [ho']; simp)]
      simp only [this]
      rfl
    refine ⟨ys, ?_, ?_, ?_⟩
    · intro y hy
      rcases List.mem_cons.1 hy with rfl | hy
      · exact hx
      · exact h1 y hy
    · intro c hc
      dsimp only
      rw [e c hc]; rfl
    · exact IsTpl.congr (IsTpl.append h3 (startLoop_tpl hn (x.conds.drop n) 0)) (fun c hc => by dsimp only; rw [e c hc])
  · have e : ∀ c, Ctx.start (chain c (x :: xs)) = (chain c ({ x with isOpen := true } :: xs), []) := by
      intro c
      have ho' : (x.fill c).isOpen = true := ho
      simp only [chain, List.map_cons]
      rw [Ctx.start, if_pos ho']
      rfl
    refine ⟨xs, ?_, fun c _ => by dsimp only; rw [e c], IsTpl.congr (IsTpl.lit []) (fun c _ => by dsimp only; rw [e c])⟩
    intro y hy
    rcases List.mem_cons.1 hy with rfl | hy
    · exact hx
    · exact h y hy

theorem finishChain_tpl (hS : Plain S) : ∀ (xs : List TCtx), (∀ y ∈ xs, y.Good S) →
    ∃ ys, Step S (fun c => Ctx.finishChain (chain c xs)) ys
  | [], _ => ⟨[], by simp, fun _ _ => rfl, IsTpl.lit []⟩
  | x :: xs, h => by
    have hx := h x (by simp)
    have hxs : ∀ y ∈ xs, y.Good S := fun y hy => h y (by simp [hy])
    obtain ⟨-, h2⟩ := finish_tpl hS hx hxs
    refine ⟨{ x with isOpen := false } :: xs, ?_, fun c _ => rfl, h2⟩
    intro y hy
    rcases List.mem_cons.1 hy with rfl | hy
    · exact hx
    · exact hxs y hy

/-- One operation after another. -/
theorem Step.bind {f : Str → List Ctx × Str} {g : List Ctx → List Ctx × Str} {ys zs : List TCtx} (hf : Step S f ys)
    (hg : Step S (fun c => g (chain c ys)) zs) :
    Step S (fun c => ((g (f c).1).1, (f c).2 ++ (g (f c).1).2)) zs := by
  obtain ⟨-, f2, f3⟩ := hf
  obtain ⟨g1, g2, g3⟩ := hg
  refine ⟨g1, fun c hc => ?_, IsTpl.append f3 (IsTpl.congr g3 (fun c hc => ?_))⟩
  · show (g (f c).1).1 = _
    rw [f2 c hc]; exact g2 c hc
  · show (g (f c).1).2 = _
    rw [f2 c hc]

theorem Step.congr {f g : Str → List Ctx × Str} {ys : List TCtx} (hf : Step S f ys) (h : ∀ c, S c → g c = f c) : Step S g ys :=
  ⟨hf.1, fun c hc => by rw [h c hc]; exact hf.2.1 c hc, IsTpl.congr hf.2.2 (fun c hc => by rw [h c hc])⟩

theorem Step.tail {f : Str → List Ctx × Str} {ys : List TCtx} (hf : Step S f ys) : Step S (fun c => ((f c).1.tail, (f c).2)) ys.tail :=
  ⟨fun y hy => hf.1 y (List.mem_of_mem_tail hy), fun c hc => by
    show (f c).1.tail = _
    rw [hf.2.1 c hc]; simp [chain], hf.2.2⟩

theorem Step.pure {xs : List TCtx} (h : ∀ y ∈ xs, y.Good S) : Step S (fun c => (chain c xs, [])) xs :=
  ⟨h, fun _ _ => rfl, IsTpl.lit []⟩

/-- The text of the class occurs in no header of the piece. -/
def FreshIn (S : Str → Prop) (hs : List Str) : Prop := ∀ c, S c → ∀ h ∈ hs, ¬ ('.' :: c) <:+: h

mutual
theorem write_tpl (hS : Plain S) : ∀ (x : RBC) (xs : List TCtx), FreshIn S (headersIn x) → (∀ y ∈ xs, y.Good S) →
    ∃ ys, Step S (fun c => RBC.write x (chain c xs)) ys
  | .attr k v, [], _, _ => by
    refine ⟨[], Step.congr (Step.pure (xs := []) (by simp)) (fun c _ => ?_)⟩
    simp [RBC.write, chain, Ctx.start]
  | .attr k v, x :: xs, _, h => by
    obtain ⟨ys, h1, h2, h3⟩ := start_tpl hS (h x (by simp)) (fun y hy => h y (List.mem_cons_of_mem _ hy))
    have e : ∀ c, S c → RBC.write (.attr k v) (chain c (x :: xs)) = (chain c ({ x with isOpen := true } :: ys),
        (Ctx.start (chain c (x :: xs))).2 ++ (Ctx.writePaddingImpl x.conds.length ++ k ++ c! ": " ++ v.flatten ++ c! ";\n")) := by
      intro c hc
      have hh := h2 c hc
      have hp : Ctx.writePadding (TCtx.fill c { x with isOpen := true }) = Ctx.writePaddingImpl x.conds.length := by
        rw [Ctx.writePadding, conditions_fill, List.length_map]; rfl
      rw [← hp]
      simp only [RBC.write]
      rw [show (Ctx.start (chain c (x :: xs))).1 = TCtx.fill c { x with isOpen := true } :: chain c ys from hh]
      simp [chain]
    refine ⟨_, h1, fun c hc => by dsimp only; rw [e c hc], ?_⟩
    exact IsTpl.congr (IsTpl.append h3 (IsTpl.lit _)) (fun c hc => by dsimp only; rw [e c hc])
  | .rule cond b, [], _, _ => by
    refine ⟨[], Step.congr (Step.pure (xs := []) (by simp)) (fun c _ => ?_)⟩
    simp [RBC.write, chain]
  | .rule cond b, x :: xs, hf, h => by
    have hx := h x (by simp)
    have hr : TCtx.Good S ⟨x.rules ++ [lit cond.flatten], x.selector, false⟩ := by
      intro t ht
      simp only [TCtx.conds, List.mem_append, List.mem_cons, List.not_mem_nil, or_false] at ht
      rcases ht with (ht | rfl) | ht
      · exact hx t (by simp [TCtx.conds, ht])
      · exact fun c hc => clean_lit (hf c hc _ (by simp [headersIn]))
      · exact hx t (by simp [TCtx.conds, ht])
    have hrf : ∀ c, Ctx.withRuleCondition (x.fill c) cond.flatten = TCtx.fill c ⟨x.rules ++ [lit cond.flatten], x.selector, false⟩ := by
      intro c
      simp [Ctx.withRuleCondition, TCtx.fill, fill_lit]
    generalize hrd : (⟨x.rules ++ [lit cond.flatten], x.selector, false⟩ : TCtx) = r at hr hrf
    have hall : ∀ y ∈ r :: x :: xs, y.Good S := by
      intro y hy
      rcases List.mem_cons.1 hy with rfl | hy
      · exact hr
      · exact h y hy
    obtain ⟨ys, hys⟩ : ∃ ys, Step S (fun c => if Str.startsWith (c! "@keyframes") cond.flatten then Ctx.start (chain c (r :: x :: xs))
        else (chain c (r :: x :: xs), [])) ys := by
      cases Str.startsWith (c! "@keyframes") cond.flatten
      · exact ⟨_, Step.pure hall⟩
      · obtain ⟨ys, hy⟩ := start_tpl hS hr h
        exact ⟨_, hy⟩
    obtain ⟨zs, hzs⟩ := writes_tpl hS b ys (fun c hc h hh => hf c hc h (by simp [headersIn, hh])) hys.1
    have h1 := hys.bind hzs
    obtain ⟨ws, hws⟩ := finishChain_tpl hS zs hzs.1
    have h2 := (h1.bind hws).tail
    refine ⟨_, h2.congr (fun c hc => ?_)⟩
    have hch : chain c (x :: xs) = x.fill c :: chain c xs := rfl
    have hch' : chain c (r :: x :: xs) = r.fill c :: x.fill c :: chain c xs := rfl
    simp only [hch, RBC.write, hrf, hch', List.append_assoc]
  | .block cond b, [], _, _ => by
    refine ⟨[], Step.congr (Step.pure (xs := []) (by simp)) (fun c _ => ?_)⟩
    simp [RBC.write, chain]
  | .block cond b, x :: xs, hf, h => by
    have hx := h x (by simp)
    obtain ⟨t, ht, hcs⟩ := condStr_tpl hS cond (fun c hc h hh => hf c hc h (by simp only [headersIn, List.mem_append]; exact Or.inl hh))
    have hr : TCtx.Good S ⟨x.rules, some ((t.or x.selector).getD [none]), false⟩ := by
      intro u hu
      simp only [TCtx.conds, List.mem_append, Option.toList_some, List.mem_singleton] at hu
      rcases hu with hu | rfl
      · exact hx u (by simp [TCtx.conds, hu])
      · cases t with
        | some t => exact ht t rfl
        | none =>
          cases hs : x.selector with
          | some s => exact hx s (by simp [TCtx.conds, hs])
          | none =>
            intro c hc h
            simp [lit, List.infix_cons_iff] at h
    have hrf : ∀ c, S c → Ctx.withBlockCondition (x.fill c) (condStr (x.fill c).className cond) =
        TCtx.fill c ⟨x.rules, some ((t.or x.selector).getD [none]), false⟩ := by
      intro c hc
      have : condStr (x.fill c).className cond = t.map (fill c) := hcs c hc
      rw [this]
      cases t <;> cases hs : x.selector <;> simp [Ctx.withBlockCondition, TCtx.fill, hs, fill]
    generalize (⟨x.rules, some ((t.or x.selector).getD [none]), false⟩ : TCtx) = r at hr hrf
    have hall : ∀ y ∈ r :: x :: xs, y.Good S := by
      intro y hy
      rcases List.mem_cons.1 hy with rfl | hy
      · exact hr
      · exact h y hy
    obtain ⟨zs, hzs⟩ := writes_tpl hS b (r :: x :: xs) (fun c hc h hh => hf c hc h (by simp only [headersIn, List.mem_append]; exact Or.inr hh)) hall
    obtain ⟨ws, hws⟩ := finishChain_tpl hS zs hzs.1
    have h2 := (hzs.bind hws).tail
    refine ⟨_, h2.congr (fun c hc => ?_)⟩
    have hch : chain c (x :: xs) = x.fill c :: chain c xs := rfl
    have hch' : chain c (r :: x :: xs) = r.fill c :: x.fill c :: chain c xs := rfl
    simp only [hch, RBC.write, hrf c hc, hch']
theorem writes_tpl (hS : Plain S) : ∀ (b : List RBC) (xs : List TCtx), FreshIn S (headersInAll b) → (∀ y ∈ xs, y.Good S) →
    ∃ ys, Step S (fun c => RBC.writes b (chain c xs)) ys
  | [], xs, _, h => ⟨xs, Step.congr (Step.pure h) (fun c _ => by simp [RBC.writes])⟩
  | x :: b, xs, hf, h => by
    obtain ⟨ys, h1⟩ := write_tpl hS x xs (fun c hc h hh => hf c hc h (by simp [headersInAll, hh])) h
    obtain ⟨zs, h2⟩ := writes_tpl hS b ys (fun c hc h hh => hf c hc h (by simp [headersInAll, hh])) h1.1
    exact ⟨zs, (h1.bind h2).congr (fun c _ => by simp only [RBC.writes])⟩
end

theorem sheet_tpl (hS : Plain S) : ∀ (s : Sheet) (xs : List TCtx), FreshIn S (headers s) → (∀ y ∈ xs, y.Good S) →
    ∃ ys, Step S (fun c => Sheet.write s (chain c xs)) ys
  | [], xs, _, h => ⟨xs, Step.congr (Step.pure h) (fun c _ => by simp [Sheet.write])⟩
  | x :: s, xs, hf, h => by
    obtain ⟨ys, h1⟩ := write_tpl hS x.toRBC xs (fun c hc h hh => hf c hc h (by simp [headers, headersInAll, hh])) h
    obtain ⟨zs, h2⟩ := sheet_tpl hS s ys (fun c hc h hh => hf c hc h (by
      simp only [headers, List.map_cons, headersInAll, List.mem_append]; exact Or.inr hh)) h1.1
    exact ⟨zs, (h1.bind h2).congr (fun c _ => by simp only [Sheet.write])⟩

end Template
