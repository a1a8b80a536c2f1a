import Verif.Proofs.Inline

/-! # Output of inline CSS -/

namespace Inline
open Spec Output

/-! ## Fragments -/

mutual
theorem toFrags_some : ∀ c, NoBraces c → toFrags c = some (fragsCV c)
  | .tok t, _ => by simp [toFrags, fragsCV]
  | .expr _ e, _ => by simp [toFrags, fragsCV]
  | .func i args, h => by
    simp only [NoBraces] at h
    simp [toFrags, fragsCV, manyFrags_some args h]
  | .block d cs, h => by
    obtain ⟨h1, h2⟩ := h
    cases d with
    | brace => exact absurd rfl h1
    | bracket => simp [toFrags, fragsCV, manyFrags_some cs h2]
    | paren => simp [toFrags, fragsCV, manyFrags_some cs h2]
theorem manyFrags_some : ∀ cs, NoBracesL cs → manyFrags cs = some (frags cs)
  | [], _ => by simp [manyFrags, frags]
  | c :: cs, ⟨h1, h2⟩ => by simp [manyFrags, frags, toFrags_some c h1, manyFrags_some cs h2]
end

mutual
theorem toFrags_none : ∀ c, ¬ NoBraces c → toFrags c = none
  | .tok t, h => absurd trivial h
  | .expr _ e, h => absurd trivial h
  | .func i args, h => by
    simp only [NoBraces] at h
    simp [toFrags, manyFrags_none args h]
  | .block d cs, h => by
    cases d with
    | brace => simp [toFrags]
    | bracket =>
      have : ¬ NoBracesL cs := fun h' => h ⟨by simp, h'⟩
      simp [toFrags, manyFrags_none cs this]
    | paren =>
      have : ¬ NoBracesL cs := fun h' => h ⟨by simp, h'⟩
      simp [toFrags, manyFrags_none cs this]
theorem manyFrags_none : ∀ cs, ¬ NoBracesL cs → manyFrags cs = none
  | [], h => absurd trivial h
  | c :: cs, h => by
    by_cases h1 : NoBraces c
    · have h2 : ¬ NoBracesL cs := fun h' => h ⟨h1, h'⟩
      simp [manyFrags, toFrags_some c h1, manyFrags_none cs h2]
    · simp [manyFrags, toFrags_none c h1]
end

theorem endsCompound_iff (l : OFrag) : endsCompound l = true ↔
    ((∃ d, l = .delimiter d false) ∨ (∃ i, l = .token (.ident i)) ∨ (∃ t s, l = .token (.lit t s)) ∨
    ∃ c j, l = .token (.punct c j) ∧ c ∈ c! "&*") := by
  cases l with
  | token t => cases t <;> simp [endsCompound]
  | delimiter d b => cases b <;> simp [endsCompound]
  | _ => simp [endsCompound]

theorem startsCompound_iff (r : OFrag) : startsCompound r = true ↔
    ((∃ i, r = .token (.ident i)) ∨ (∃ t s, r = .token (.lit t s)) ∨
    ∃ c j, r = .token (.punct c j) ∧ c ∈ c! "*#") := by
  cases r with
  | token t => cases t <;> simp [startsCompound]
  | _ => simp [startsCompound]

theorem fragmentSpacing_eq (l r : OFrag) :
    fragmentSpacing l r = open Classical in if NeedsBlank l r then some (.str (c! " ")) else none := by
  unfold fragmentSpacing
  have : (endsCompound l && startsCompound r) = true ↔ NeedsBlank l r := by
    rw [Bool.and_eq_true, endsCompound_iff, startsCompound_iff, NeedsBlank]
  by_cases h : NeedsBlank l r
  · rw [if_pos (this.2 h), if_pos h]
  · rw [if_neg (fun h' => h (this.1 h')), if_neg h]

theorem spacedFrags_some {cs : List CV} (h : NoBracesL cs) : spacedFrags cs = some (Spec.spacedFrags cs) := by
  unfold spacedFrags Spec.spacedFrags
  rw [manyFrags_some cs h, Option.map_some, Spacing.spaced_eq]
  congr 2
  funext s l r
  rw [fragmentSpacing_eq]

theorem spacedFrags_none {cs : List CV} (h : ¬ NoBracesL cs) : spacedFrags cs = none := by
  unfold spacedFrags
  rw [manyFrags_none cs h]; rfl

mutual
theorem value_noBraces : ∀ c, ValidValue c → NoBraces c
  | .tok _, _ => trivial
  | .expr _ _, _ => trivial
  | .func _ args, h => values_noBraces args h
  | .block _ _, h => h.elim
theorem values_noBraces : ∀ cs, ValidValues cs → NoBracesL cs
  | [], _ => trivial
  | c :: cs, ⟨h1, h2⟩ => ⟨value_noBraces c h1, values_noBraces cs h2⟩
end

/-! ## Selectors -/

theorem isComma_iff (c : CV) : isComma c = true ↔ ∃ j, c = .tok (.punct ',' j) := by
  cases c with
  | tok t => cases t <;> simp [isComma]
  | _ => simp [isComma]

theorem splitCommas_comma (j : Bool) (cs : List CV) : splitCommas (.tok (.punct ',' j) :: cs) = [] :: splitCommas cs := by
  simp [splitCommas]

theorem splitCommas_other {c : CV} (h : isComma c = false) (cs : List CV) :
    splitCommas (c :: cs) = match splitCommas cs with | [] => [[c]] | p :: ps => (c :: p) :: ps := by
  cases c with
  | tok t =>
    cases t with
    | punct a j =>
      rw [splitCommas]
      · rfl
      · intro j' he
        rw [he] at h
        simp [isComma] at h
    | lit | ident => rfl
  | func | block | expr => rfl

theorem splitCommas_ne : ∀ cs, splitCommas cs ≠ []
  | [] => by simp [splitCommas]
  | c :: cs => by
    by_cases h : isComma c = true
    · obtain ⟨j, rfl⟩ := (isComma_iff c).1 h
      simp [splitCommas]
    · rw [splitCommas_other (by simpa using h)]
      split <;> simp

/-- Either there is no comma, or the first selector ends at the first one. -/
theorem takeSelector_spec : ∀ cs : List CV,
    (splitCommas cs = [cs] ∧ takeSelector cs = (cs, [])) ∨
    ((takeSelector cs).2.length < cs.length ∧ splitCommas cs = (takeSelector cs).1 :: splitCommas (takeSelector cs).2 ∧
      ∃ j, cs = (takeSelector cs).1 ++ .tok (.punct ',' j) :: (takeSelector cs).2)
  | [] => .inl ⟨by simp [splitCommas], by simp [takeSelector]⟩
  | c :: cs => by
    by_cases h : isComma c = true
    · obtain ⟨j, rfl⟩ := (isComma_iff c).1 h
      right
      simp only [takeSelector, h, if_true]
      exact ⟨by simp, splitCommas_comma j cs, j, rfl⟩
    · have h : isComma c = false := by simpa using h
      rw [splitCommas_other h]
      have ht : takeSelector (c :: cs) = (c :: (takeSelector cs).1, (takeSelector cs).2) := by
        simp [takeSelector, h]
      rw [ht]
      rcases takeSelector_spec cs with ⟨h1, h2⟩ | ⟨h1, h2, j, h3⟩
      · left; simp [h1, h2]
      · right
        refine ⟨by simp only [List.length_cons]; omega, by rw [h2], j, ?_⟩
        simp only [List.cons_append]
        rw [← h3]

theorem noBraces_append : ∀ a b : List CV, NoBracesL (a ++ b) ↔ NoBracesL a ∧ NoBracesL b
  | [], b => by simp [NoBracesL]
  | c :: a, b => by simp [NoBracesL, noBraces_append a b, and_assoc]

theorem dropEmpty_cons {a : List CV} {l : List (List CV)} (h : a ≠ [] ∨ l ≠ []) :
    dropEmpty (a :: l) = a :: dropEmpty l := by
  cases a with
  | nil =>
    cases l with
    | nil => simp at h
    | cons => simp [dropEmpty]
  | cons => simp [dropEmpty]

theorem selectors_cons {c : CV} {cs : List CV} :
    selectors (c :: cs) = Spec.spacedFrags (takeSelector (c :: cs)).1 :: selectors (takeSelector (c :: cs)).2 := by
  unfold selectors
  rcases takeSelector_spec (c :: cs) with ⟨h1, h2⟩ | ⟨h1, h2, j, h3⟩
  · rw [h1, h2]
    simp [dropEmpty, splitCommas]
  · rw [h2, dropEmpty_cons (.inr (splitCommas_ne _))]
    simp

theorem selectorsOut_some : ∀ (n : Nat) (cs : List CV), cs.length ≤ n → NoBracesL cs →
    selectorsOut n cs = some (selectors cs)
  | n, [], _, _ => by cases n <;> simp [selectorsOut, selectors, splitCommas, dropEmpty]
  | 0, _ :: _, h, _ => by simp at h
  | n + 1, c :: cs, hn, h => by
    have key : NoBracesL (takeSelector (c :: cs)).1 ∧ NoBracesL (takeSelector (c :: cs)).2 ∧
        (takeSelector (c :: cs)).2.length ≤ n := by
      rcases takeSelector_spec (c :: cs) with ⟨h1, h2⟩ | ⟨h1, h2, j, h3⟩
      · rw [h2]; exact ⟨h, trivial, by simp⟩
      · rw [h3, noBraces_append] at h
        simp only [List.length_cons] at hn h1
        exact ⟨h.1, h.2.2, by omega⟩
    rw [selectors_cons]
    have he : selectorsOut (n + 1) (c :: cs) =
      match spacedFrags (takeSelector (c :: cs)).1, selectorsOut n (takeSelector (c :: cs)).2 with
      | some s, some ss => some (s :: ss)
      | _, _ => none := rfl
    rw [he, spacedFrags_some key.1, selectorsOut_some n _ key.2.2 key.2.1]

theorem selectorsOut_none : ∀ (n : Nat) (cs : List CV), ¬ NoBracesL cs → selectorsOut n cs = none
  | n, [], h => absurd trivial h
  | 0, _ :: _, h => by simp [selectorsOut]
  | n + 1, c :: cs, h => by
    have key : ¬ NoBracesL (takeSelector (c :: cs)).1 ∨ ¬ NoBracesL (takeSelector (c :: cs)).2 := by
      rcases takeSelector_spec (c :: cs) with ⟨h1, h2⟩ | ⟨h1, h2, j, h3⟩
      · rw [h2]; exact .inl h
      · rw [h3, noBraces_append] at h
        by_cases h' : NoBracesL (takeSelector (c :: cs)).1
        · exact .inr (fun h'' => h ⟨h', trivial, h''⟩)
        · exact .inl h'
    have he : selectorsOut (n + 1) (c :: cs) =
      match spacedFrags (takeSelector (c :: cs)).1, selectorsOut n (takeSelector (c :: cs)).2 with
      | some s, some ss => some (s :: ss)
      | _, _ => none := rfl
    rw [he]
    rcases key with h | h
    · rw [spacedFrags_none h]
    · rw [selectorsOut_none n _ h]
      cases spacedFrags (takeSelector (c :: cs)).1 <;> rfl

/-! ## Errors -/

theorem app_nil {a b : List IErr} : a ++ b = [] ↔ a = [] ∧ b = [] := List.append_eq_nil_iff

mutual
theorem blockOut_clean : ∀ (is : List Item) (out) , blockOut is = some (out, []) → CleanL true is
  | [], _, _ => trivial
  | .attr name vs es :: is, out, h => by
    simp only [blockOut] at h
    split at h
    · rename_i a e b e' h1 h2
      simp only [Option.some.injEq, Prod.mk.injEq, app_nil] at h
      obtain ⟨-, rfl, rfl⟩ := h
      refine ⟨?_, blockOut_clean is b h2⟩
      simp only [attrOut] at h1
      split at h1
      · cases h1
      · cases h1; rfl
    · cases h
  | .atRule name ps es content :: is, out, h => by
    simp only [blockOut] at h
    split at h
    · rename_i c a e b e' h1 h2 h3
      simp only [Option.some.injEq, Prod.mk.injEq, app_nil] at h
      obtain ⟨-, ⟨rfl, rfl⟩, rfl⟩ := h
      refine ⟨?_, blockOut_clean is b h3⟩
      exact blockOutOpt_clean content name ps a h2
    · cases h
  | .nested _ _ _ :: is, out, h => by
    simp only [blockOut] at h
    split at h
    · simp at h
    · cases h
theorem blockOutOpt_clean : ∀ (content : Option (List Item)) (name ps out), blockOutOpt content = some (out, []) →
    Clean true (.atRule name ps [] content)
  | none, _, _, _, _ => rfl
  | some is, _, _, out, h => ⟨rfl, blockOut_clean is out (by simpa only [blockOutOpt] using h)⟩
end

mutual
theorem ruleOut_clean : ∀ (is : List Item) (attrs out), ruleOut is attrs = some (out, []) → CleanL false is
  | [], _, _, _ => trivial
  | .attr name vs es :: is, attrs, out, h => by
    simp only [ruleOut] at h
    split at h
    · cases h
    · rename_i a e h1
      split at h
      · rename_i b e' h2
        simp only [Option.some.injEq, Prod.mk.injEq, app_nil] at h
        obtain ⟨-, rfl, rfl⟩ := h
        refine ⟨?_, ruleOut_clean is _ b h2⟩
        simp only [attrOut] at h1
        split at h1
        · cases h1
        · cases h1; rfl
      · cases h
  | .atRule name ps es content :: is, attrs, out, h => by
    simp only [ruleOut] at h
    split at h
    · rename_i c a e b e' h1 h2 h3
      simp only [Option.some.injEq, Prod.mk.injEq, app_nil] at h
      obtain ⟨-, ⟨rfl, rfl⟩, rfl⟩ := h
      exact ⟨ruleOutOpt_clean content name ps a h2, ruleOut_clean is _ b h3⟩
    · cases h
  | .nested qs es scope :: is, attrs, out, h => by
    simp only [ruleOut] at h
    split at h
    · rename_i c a e b e' h1 h2
      simp only [Option.some.injEq, Prod.mk.injEq, app_nil] at h
      obtain ⟨-, rfl, rfl⟩ := h
      refine ⟨?_, ruleOut_clean is _ b h2⟩
      simp only [nestedOut] at h1
      split at h1
      · rename_i c' b' e' h3 h4
        simp only [Option.some.injEq, Prod.mk.injEq, app_nil] at h1
        obtain ⟨-, rfl, rfl⟩ := h1
        exact ⟨rfl, rfl, blockOut_clean scope b' h4⟩
      · cases h1
    · cases h
theorem ruleOutOpt_clean : ∀ (content : Option (List Item)) (name ps out), ruleOutOpt content = some (out, []) →
    Clean false (.atRule name ps [] content)
  | none, _, _, _, _ => rfl
  | some is, _, _, out, h => ⟨rfl, ruleOut_clean is [] out (by simpa only [ruleOutOpt] using h)⟩
end

/-- The root and the inside of an at-rule are emitted in the same way. -/
theorem rootOut_eq : ∀ (is : List Item) (attrs : List ORBC),
    (rootOut is attrs).map (fun p => (p.1.map scopeRBC, p.2)) = ruleOut is attrs := by
  have hf : ∀ attrs : List ORBC, (flushAttrs (OScope.block []) attrs).map scopeRBC = flushAttrs (ORBC.block []) attrs := by
    intro attrs
    cases attrs <;> simp [flushAttrs, scopeRBC]
  intro is
  induction is with
  | nil => intro attrs; simp [rootOut, ruleOut, hf]
  | cons i is ih =>
    intro attrs
    cases i with
    | attr name vs es =>
      simp only [rootOut, ruleOut]
      cases attrOut name vs es with
      | none => rfl
      | some p =>
        simp only [← ih]
        cases rootOut is (attrs ++ [p.1]) <;> rfl
    | atRule name ps es content =>
      simp only [rootOut, ruleOut, ← ih]
      cases conditionOut name ps with
      | none => rfl
      | some c =>
        cases ruleOutOpt content with
        | none => rfl
        | some p =>
          cases rootOut is [] with
          | none => rfl
          | some q => simp [hf, scopeRBC]
    | nested qs es scope =>
      simp only [rootOut, ruleOut, ← ih]
      cases nestedOut qs es scope with
      | none => rfl
      | some p =>
        cases rootOut is [] with
        | none => rfl
        | some q => simp [hf, scopeRBC]

/-! ## Sheets without errors -/

theorem nameOf_out {name : CV} (h : IsName name) : (nameOf name).out = keyOf name := by
  cases name with
  | tok t =>
    cases t <;> simp [IsName] at h
    simp [nameOf, AName.out, OFrag.inner, tokenText_eq, tokenText, keyOf]
  | expr j e =>
    by_cases hl : ∃ t v, e = [.lit t (some v)]
    · obtain ⟨t, v, rfl⟩ := hl
      rfl
    · have h1 : strLit e = none := by
        unfold strLit
        split
        · rename_i t v; exact absurd ⟨t, v, rfl⟩ hl
        · rfl
      have h2 : keyOf (.expr j e) = .raw e := by
        rw [keyOf]
        intro t v he
        exact hl ⟨t, v, he⟩
      simp only [nameOf, AName.out, OFrag.inner, h1, h2, displayable]
  | _ => simp [IsName] at h

theorem attrOut_some {name : CV} {vs : List CV} (h1 : IsName name) (h2 : ValidValues vs) :
    attrOut (nameOf name) vs [] = some (declOut (.decl name vs), []) := by
  simp only [attrOut, spacedFrags_some (values_noBraces vs h2), nameOf_out h1, declOut]

theorem conditionOut_some {name : CssIdent} {ps : List CV} (h : NoBracesL ps) :
    conditionOut name ps = some (condition name ps) := by
  simp [conditionOut, spacedFrags_some h, condition, cssName_eq]

theorem conditionOut_none {name : CssIdent} {ps : List CV} (h : ¬ NoBracesL ps) : conditionOut name ps = none := by
  simp [conditionOut, spacedFrags_none h]

mutual
/-- What is needed to emit an item: well-formed declarations, and blocks only where `b` is
false. -/
def Fine : Bool → SItem → Prop
  | _, .decl name vs => IsName name ∧ ValidValues vs
  | b, .rule _ _ body => FineL b body
  | b, .block _ body => b = false ∧ FineL true body
/-- For a list. -/
def FineL : Bool → List SItem → Prop
  | _, [] => True
  | b, i :: is => Fine b i ∧ FineL b is
end

theorem sheets_fine {isExpr : RExpr → Bool} {b : Bool} {ts : List Tree} {is : List SItem}
    (h : Sheets isExpr b ts is) : FineL b is := by
  induction h with
  | nil => exact trivial
  | decl b j j' name vs rest is hn h1 h2 h3 h4 h5 ih => exact ⟨⟨hn, h4⟩, ih⟩
  | rule b j name ps inner body rest is hm h1 h2 h3 h4 h5 h6 ih1 ih2 => exact ⟨ih1, ih2⟩
  | block qs inner body rest is h1 h2 h3 h4 h5 ih1 ih2 => exact ⟨⟨rfl, ih1⟩, ih2⟩

theorem emitsIn_exists : ∀ (is : List SItem), FineL true is → ∃ out, EmitsIn is out
  | [], _ => ⟨[], .nil⟩
  | .decl name vs :: is, ⟨_, h⟩ => by
    obtain ⟨out, ho⟩ := emitsIn_exists is h
    exact ⟨_, .decl name vs is out ho⟩
  | .rule name ps body :: is, ⟨h1, h2⟩ => by
    obtain ⟨a, ha⟩ := emitsIn_exists body h1
    obtain ⟨out, ho⟩ := emitsIn_exists is h2
    exact ⟨_, .rule name ps body a is out ha ho⟩
  | .block qs body :: is, ⟨⟨h, _⟩, _⟩ => by cases h

/-- Declarations at the front, and the rest. -/
theorem decls_front : ∀ (is : List SItem), ∃ ds is', is = ds ++ is' ∧ (∀ d ∈ ds, IsDecl d) ∧
    (∀ i ∈ is'.head?, ¬ IsDecl i)
  | [] => ⟨[], [], rfl, by simp, by simp⟩
  | i :: is => by
    cases i with
    | decl name vs =>
      obtain ⟨ds, is', rfl, h1, h2⟩ := decls_front is
      refine ⟨.decl name vs :: ds, is', rfl, ?_, h2⟩
      intro d hd
      rcases List.mem_cons.1 hd with rfl | hd
      · trivial
      · exact h1 d hd
    | rule name ps body => exact ⟨[], _, rfl, by simp, by simp [IsDecl]⟩
    | block qs body => exact ⟨[], _, rfl, by simp, by simp [IsDecl]⟩

theorem fineL_append {b : Bool} : ∀ x y : List SItem, FineL b (x ++ y) ↔ FineL b x ∧ FineL b y
  | [], y => by simp [FineL]
  | i :: x, y => by simp [FineL, fineL_append x y, and_assoc]

theorem braceFreeL_append : ∀ x y : List SItem, BraceFreeL (x ++ y) ↔ BraceFreeL x ∧ BraceFreeL y
  | [], y => by simp [BraceFreeL]
  | i :: x, y => by simp [BraceFreeL, braceFreeL_append x y, and_assoc]

theorem braceFreeL_decls : ∀ ds : List SItem, (∀ d ∈ ds, IsDecl d) → BraceFreeL ds
  | [], _ => trivial
  | d :: ds, h => by
    refine ⟨?_, braceFreeL_decls ds (fun x hx => h x (List.mem_cons_of_mem _ hx))⟩
    have := h d List.mem_cons_self
    cases d with
    | decl => trivial
    | _ => simp [IsDecl] at this

mutual
/-- Number of items. -/
def itemSize : SItem → Nat
  | .decl _ _ => 1
  | .rule _ _ body => 1 + itemsSize body
  | .block _ body => 1 + itemsSize body
/-- Of a list. -/
def itemsSize : List SItem → Nat
  | [] => 0
  | i :: is => itemSize i + itemsSize is
end

theorem itemsSize_append : ∀ x y : List SItem, itemsSize (x ++ y) = itemsSize x + itemsSize y
  | [], y => by simp [itemsSize]
  | i :: x, y => by simp [itemsSize, itemsSize_append x y, Nat.add_assoc]

theorem itemSize_pos (i : SItem) : 1 ≤ itemSize i := by cases i <;> simp [itemSize]

theorem emits_exists : ∀ (n : Nat) (is : List SItem), itemsSize is ≤ n → FineL false is → ∃ out, Emits is out
  | _, [], _, _ => ⟨[], .nil⟩
  | 0, i :: is, hn, _ => by
    have := itemSize_pos i
    simp only [itemsSize] at hn
    omega
  | n + 1, .decl name vs :: is, hn, h => by
    obtain ⟨ds, is', rfl, h1, h2⟩ := decls_front is
    simp only [itemsSize, itemSize, itemsSize_append] at hn
    have hf := (fineL_append ds is').1 h.2
    obtain ⟨out, ho⟩ := emits_exists n is' (by omega) hf.2
    refine ⟨_, Emits.decls (.decl name vs :: ds) is' out (by simp) ?_ h2 ho⟩
    intro d hd
    rcases List.mem_cons.1 hd with rfl | hd
    · trivial
    · exact h1 d hd
  | n + 1, .rule name ps body :: is, hn, ⟨h1, h2⟩ => by
    simp only [itemsSize, itemSize] at hn
    obtain ⟨a, ha⟩ := emits_exists n body (by omega) h1
    obtain ⟨out, ho⟩ := emits_exists n is (by omega) h2
    exact ⟨_, .rule name ps body a is out ha ho⟩
  | n + 1, .block qs body :: is, hn, ⟨⟨_, h1⟩, h2⟩ => by
    simp only [itemsSize, itemSize] at hn
    obtain ⟨a, ha⟩ := emitsIn_exists body h1
    obtain ⟨out, ho⟩ := emits_exists n is (by omega) h2
    exact ⟨_, .block qs body a is out ha ho⟩

theorem ofSs_append : ∀ x y : List SItem, ofSs (x ++ y) = ofSs x ++ ofSs y
  | [], y => by simp [ofSs]
  | i :: x, y => by simp [ofSs, ofSs_append x y]

theorem blockOut_emits {is : List SItem} {out : List ORBC} (h : EmitsIn is out) (hf : FineL true is)
    (hb : BraceFreeL is) : blockOut (ofSs is) = some (out, []) := by
  induction h with
  | nil => simp [ofSs, blockOut]
  | decl name vs is out h ih =>
    obtain ⟨⟨h1, h2⟩, h3⟩ := hf
    simp only [ofSs, ofS, blockOut, attrOut_some h1 h2, ih h3 hb.2, List.append_nil]
  | rule name ps body a is out h1 h2 ih1 ih2 =>
    obtain ⟨⟨g1, g2⟩, g3⟩ := hb
    simp only [ofSs, ofS, blockOut, blockOutOpt, conditionOut_some g1, ih1 hf.1 g2, ih2 hf.2 g3, List.append_nil]

theorem ruleOut_decls : ∀ (ds : List SItem) (is : List Item) (attrs : List ORBC), (∀ d ∈ ds, IsDecl d) → FineL false ds →
    ruleOut (ofSs ds ++ is) attrs = ruleOut is (attrs ++ ds.map declOut)
  | [], is, attrs, _, _ => by simp [ofSs]
  | d :: ds, is, attrs, h, hf => by
    have hd := h d List.mem_cons_self
    cases d with
    | decl name vs =>
      obtain ⟨⟨h1, h2⟩, h3⟩ := hf
      have ih := ruleOut_decls ds is (attrs ++ [declOut (.decl name vs)]) (fun x hx => h x (List.mem_cons_of_mem _ hx)) h3
      simp only [ofSs, ofS, List.cons_append, ruleOut, attrOut_some h1 h2, ih, List.map_cons, List.append_assoc,
        List.nil_append]
      cases ruleOut is (attrs ++ declOut (.decl name vs) :: ds.map declOut) <;> simp
    | _ => simp [IsDecl] at hd

theorem ruleOut_flush {is : List SItem} (h : ∀ i ∈ is.head?, ¬ IsDecl i) (attrs : List ORBC) :
    ruleOut (ofSs is) attrs =
      (ruleOut (ofSs is) []).map (fun p => (flushAttrs (ORBC.block []) attrs ++ p.1, p.2)) := by
  cases is with
  | nil => simp [ofSs, ruleOut, flushAttrs]
  | cons i is =>
    have hi := h i (by simp)
    cases i with
    | decl => simp [IsDecl] at hi
    | rule name ps body =>
      simp only [ofSs, ofS, ruleOut]
      cases conditionOut name ps with
      | none => rfl
      | some c =>
        cases ruleOutOpt (some (ofSs body)) with
        | none => rfl
        | some p =>
          cases ruleOut (ofSs is) [] with
          | none => rfl
          | some q => simp [flushAttrs]
    | block qs body =>
      simp only [ofSs, ofS, ruleOut]
      cases nestedOut qs [] (ofSs body) with
      | none => rfl
      | some p =>
        cases ruleOut (ofSs is) [] with
        | none => rfl
        | some q => simp [flushAttrs]

theorem ruleOut_emits {is : List SItem} {out : List ORBC} (h : Emits is out) (hf : FineL false is)
    (hb : BraceFreeL is) : ruleOut (ofSs is) [] = some (out, []) := by
  induction h with
  | nil => simp [ofSs, ruleOut, flushAttrs]
  | decls ds is out hne hds hhd h ih =>
    obtain ⟨h1, h2⟩ := (fineL_append ds is).1 hf
    have h3 := ((braceFreeL_append ds is).1 hb).2
    rw [ofSs_append, ruleOut_decls ds _ _ hds h1, ruleOut_flush hhd, ih h2 h3]
    cases ds with
    | nil => exact absurd rfl hne
    | cons d ds => simp [flushAttrs]
  | rule name ps body a is out h1 h2 ih1 ih2 =>
    obtain ⟨⟨g1, g2⟩, g3⟩ := hb
    simp only [ofSs, ofS, ruleOut, ruleOutOpt, conditionOut_some g1, ih1 hf.1 g2, ih2 hf.2 g3, List.append_nil]
    simp [flushAttrs]
  | block qs body a is out h1 h2 ih2 =>
    obtain ⟨⟨g1, g2⟩, g3⟩ := hb
    obtain ⟨⟨_, f1⟩, f2⟩ := hf
    have hbo := blockOut_emits h1 f1 g2
    simp only [ofSs, ofS, ruleOut, nestedOut, selectorsOut_some _ qs (Nat.le_refl _) g1, hbo, ih2 f2 g3, List.append_nil]
    simp [flushAttrs]

/-! ## Panics -/

mutual
theorem blockOut_none : ∀ (i : SItem) (is : List Item), Fine true i → ¬ BraceFree i → blockOut (ofS i :: is) = none
  | .decl _ _, _, _, h => absurd trivial h
  | .rule name ps body, is, hf, h => by
    simp only [ofS, blockOut, blockOutOpt]
    by_cases h1 : NoBracesL ps
    · have h2 : ¬ BraceFreeL body := fun h' => h ⟨h1, h'⟩
      rw [blockOutL_none body hf h2]
      cases conditionOut name ps <;> rfl
    · rw [conditionOut_none h1]
  | .block _ _, _, hf, _ => by cases hf.1
theorem blockOutL_none : ∀ (is : List SItem), FineL true is → ¬ BraceFreeL is → blockOut (ofSs is) = none
  | [], _, h => absurd trivial h
  | i :: is, hf, h => by
    by_cases h1 : BraceFree i
    · have h2 : ¬ BraceFreeL is := fun h' => h ⟨h1, h'⟩
      have ih := blockOutL_none is hf.2 h2
      cases i with
      | decl name vs =>
        simp only [ofSs, ofS, blockOut, ih]
        cases attrOut (nameOf name) vs [] <;> rfl
      | rule name ps body =>
        simp only [ofSs, ofS, blockOut, ih]
        cases conditionOut name ps with
        | none => rfl
        | some => cases blockOutOpt (some (ofSs body)) <;> rfl
      | block => cases hf.1.1
    · rw [ofSs]; exact blockOut_none i (ofSs is) hf.1 h1
end

mutual
theorem ruleOut_none : ∀ (i : SItem) (is : List Item) (attrs), Fine false i → ¬ BraceFree i → ruleOut (ofS i :: is) attrs = none
  | .decl _ _, _, _, _, h => absurd trivial h
  | .rule name ps body, is, attrs, hf, h => by
    simp only [ofS, ruleOut, ruleOutOpt]
    by_cases h1 : NoBracesL ps
    · have h2 : ¬ BraceFreeL body := fun h' => h ⟨h1, h'⟩
      rw [ruleOutL_none body [] hf h2]
      cases conditionOut name ps <;> rfl
    · rw [conditionOut_none h1]
  | .block qs body, is, attrs, hf, h => by
    simp only [ofS, ruleOut, nestedOut]
    by_cases h1 : NoBracesL qs
    · have h2 : ¬ BraceFreeL body := fun h' => h ⟨h1, h'⟩
      rw [blockOutL_none body hf.2 h2]
      cases selectorsOut qs.length qs <;> rfl
    · rw [selectorsOut_none _ _ h1]
theorem ruleOutL_none : ∀ (is : List SItem) (attrs), FineL false is → ¬ BraceFreeL is → ruleOut (ofSs is) attrs = none
  | [], _, _, h => absurd trivial h
  | i :: is, attrs, hf, h => by
    by_cases h1 : BraceFree i
    · have h2 : ¬ BraceFreeL is := fun h' => h ⟨h1, h'⟩
      have ih := fun attrs => ruleOutL_none is attrs hf.2 h2
      cases i with
      | decl name vs =>
        simp only [ofSs, ofS, ruleOut, ih]
        cases attrOut (nameOf name) vs [] <;> rfl
      | rule name ps body =>
        simp only [ofSs, ofS, ruleOut, ih]
        cases conditionOut name ps with
        | none => rfl
        | some => cases ruleOutOpt (some (ofSs body)) <;> rfl
      | block qs body =>
        simp only [ofSs, ofS, ruleOut, ih]
        cases nestedOut qs [] (ofSs body) <;> rfl
    · rw [ofSs]; exact ruleOut_none i (ofSs is) attrs hf.1 h1
end

/-! ## Uniqueness -/

theorem nameOf_inj {a b : CV} (ha : IsName a) (hb : IsName b) (h : nameOf a = nameOf b) : a = b := by
  cases a with
  | tok t =>
    cases t <;> simp [IsName] at ha
    cases b with
    | tok u => cases u <;> simp [IsName] at hb; cases h; rfl
    | expr => cases h
    | _ => simp [IsName] at hb
  | expr j e =>
    cases b with
    | tok u => cases u <;> simp [IsName] at hb; cases h
    | expr => cases h; rfl
    | _ => simp [IsName] at hb
  | _ => simp [IsName] at ha

mutual
theorem ofS_inj : ∀ (x y : SItem) (b : Bool), Fine b x → Fine b y → ofS x = ofS y → x = y
  | .decl n vs, .decl m ws, _, hx, hy, h => by
    simp only [ofS, Item.attr.injEq] at h
    rw [nameOf_inj hx.1 hy.1 h.1, h.2.1]
  | .rule n ps body, .rule m qs body', b, hx, hy, h => by
    simp only [ofS, Item.atRule.injEq, Option.some.injEq] at h
    rw [h.1, h.2.1, ofSs_inj body body' b hx hy h.2.2.2]
  | .block ps body, .block qs body', b, hx, hy, h => by
    simp only [ofS, Item.nested.injEq] at h
    rw [h.1, ofSs_inj body body' true hx.2 hy.2 h.2.2]
  | .decl _ _, .rule _ _ _, _, _, _, h => by simp [ofS] at h
  | .decl _ _, .block _ _, _, _, _, h => by simp [ofS] at h
  | .rule _ _ _, .decl _ _, _, _, _, h => by simp [ofS] at h
  | .rule _ _ _, .block _ _, _, _, _, h => by simp [ofS] at h
  | .block _ _, .decl _ _, _, _, _, h => by simp [ofS] at h
  | .block _ _, .rule _ _ _, _, _, _, h => by simp [ofS] at h
theorem ofSs_inj : ∀ (x y : List SItem) (b : Bool), FineL b x → FineL b y → ofSs x = ofSs y → x = y
  | [], [], _, _, _, _ => rfl
  | x :: xs, y :: ys, b, hx, hy, h => by
    simp only [ofSs, List.cons.injEq] at h
    rw [ofS_inj x y b hx.1 hy.1 h.1, ofSs_inj xs ys b hx.2 hy.2 h.2]
  | [], _ :: _, _, _, _, h => by simp [ofSs] at h
  | _ :: _, [], _, _, _, h => by simp [ofSs] at h
end

theorem sheets_unique {isExpr : RExpr → Bool} {ts : List Tree} {b : Bool} {is is' : List SItem}
    (h : Sheets isExpr b ts is) (h' : Sheets isExpr b ts is') : is = is' := by
  have h1 := items_complete h _ (Nat.le_refl _)
  have h2 := items_complete h' _ (Nat.le_refl _)
  rw [h1] at h2
  exact ofSs_inj is is' b (sheets_fine h) (sheets_fine h') (by simpa using h2)

/-! ## The macro -/

theorem macroFn_code (isExpr : RExpr → Bool) (ts : List Tree) (c : CSheet) :
    macroFn isExpr ts = .code c ↔ ∃ is out, Sheets isExpr false ts is ∧ BraceFreeL is ∧
      Emits is (out.map scopeRBC) ∧ c = reifySheet out := by
  constructor
  · intro h
    unfold macroFn at h
    split at h
    · cases h
    · rename_i items hp
      split at h
      · cases h
      · cases h
      · rename_i s hr
        cases h
        have h1 := rootOut_eq items []
        rw [hr] at h1
        simp only [Option.map_some] at h1
        obtain ⟨is, rfl, hs⟩ := items_sound isExpr _ false ts items hp (ruleOut_clean items [] _ h1.symm)
        have hf := sheets_fine hs
        by_cases hb : BraceFreeL is
        · obtain ⟨out, ho⟩ := emits_exists _ is (Nat.le_refl _) hf
          have h2 := ruleOut_emits ho hf hb
          rw [← h1] at h2
          simp only [Option.some.injEq, Prod.mk.injEq, and_true] at h2
          exact ⟨is, s, hs, hb, h2 ▸ ho, rfl⟩
        · rw [ruleOutL_none is [] hf hb] at h1; cases h1
  · rintro ⟨is, out, hs, hb, ho, rfl⟩
    have hp : parseRoot isExpr ts = some (ofSs is) := items_complete hs _ (Nat.le_refl _)
    have h1 := rootOut_eq (ofSs is) []
    rw [ruleOut_emits ho (sheets_fine hs) hb] at h1
    obtain ⟨⟨s, e⟩, h2, h3⟩ := Option.map_eq_some_iff.1 h1
    simp only [Prod.mk.injEq] at h3
    obtain ⟨h3, rfl⟩ := h3
    have hso : s = out := by
      have hinj : ∀ a b : List OScope, a.map scopeRBC = b.map scopeRBC → a = b := by
        intro a
        induction a with
        | nil => intro b h; cases b with
          | nil => rfl
          | cons => cases h
        | cons x a ih =>
          intro b h
          cases b with
          | nil => cases h
          | cons y b =>
            simp only [List.map_cons, List.cons.injEq] at h
            rw [ih b h.2]
            cases x <;> cases y <;> simp [scopeRBC] at h ⊢ <;> exact h.1
      exact hinj s out h3
    subst hso
    simp only [macroFn, hp, h2]

theorem macroFn_panic {isExpr : RExpr → Bool} {ts : List Tree} {is : List SItem} (h : Sheets isExpr false ts is)
    (hb : ¬ BraceFreeL is) : macroFn isExpr ts = .panic := by
  have hp : parseRoot isExpr ts = some (ofSs is) := items_complete h _ (Nat.le_refl _)
  have h1 := rootOut_eq (ofSs is) []
  rw [ruleOutL_none is [] (sheets_fine h) hb, Option.map_eq_none_iff] at h1
  simp only [macroFn, hp, h1]

end Inline
