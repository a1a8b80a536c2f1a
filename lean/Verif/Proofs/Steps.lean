import Verif.Model.Steps
import Verif.Proofs.Rejected

/-!
# The work of the css parser: lemmas

The counted parsers give the results of `Model/Parser`, and bounds for their steps.
-/

namespace Steps
open NomP (Suff Prog)

/-- The parser without its counter. -/
def res {α : Type} (p : Counted α) : Parser α := fun i => (p i).1

section
variable {α β γ : Type}

theorem res_map (p : Counted α) (f : α → β) : res (map p f) = Nom.map (res p) f := by
  funext i
  simp only [res, map, Nom.map]
  rcases p i with ⟨_ | ⟨r, a⟩, k⟩ <;> rfl

theorem res_alt (p q : Counted α) : res (alt p q) = Nom.alt (res p) (res q) := by
  funext i
  simp only [res, alt, Nom.alt]
  rcases p i with ⟨_ | ⟨r, a⟩, k⟩ <;> rfl

theorem res_fail : res (fail : Counted α) = Nom.fail := rfl
theorem res_tag (t : Str) : res (tag t) = Nom.tag t := rfl
theorem res_takeWhile1 (f : Char → Bool) : res (takeWhile1 f) = Nom.takeWhile1 f := rfl
theorem res_isNot (s : Str) : res (isNot s) = Nom.isNot s := rfl
theorem res_noneOf (s : Str) : res (noneOf s) = Nom.noneOf s := rfl
theorem res_anychar : res anychar = Nom.anychar := rfl
theorem res_alpha1 : res alpha1 = Nom.alpha1 := rfl
theorem res_alphanumeric1 : res alphanumeric1 = Nom.alphanumeric1 := rfl

theorem res_not (p : Counted α) : res (Steps.not p) = Nom.not (res p) := by
  funext i
  simp only [res, Steps.not, Nom.not]
  rcases p i with ⟨_ | ⟨r, a⟩, k⟩ <;> rfl

theorem res_opt (p : Counted α) : res (opt p) = Nom.opt (res p) := by
  funext i
  simp only [res, opt, Nom.opt]
  rcases p i with ⟨_ | ⟨r, a⟩, k⟩ <;> rfl

theorem res_recognize (p : Counted α) : res (recognize p) = Nom.recognize (res p) := by
  funext i
  simp only [res, recognize, Nom.recognize]
  rcases p i with ⟨_ | ⟨r, a⟩, k⟩ <;> rfl

theorem res_both (f : α → β → γ) (p : Counted α) (q : Counted β) :
    res (both f p q) = Nom.map (Nom.pair (res p) (res q)) (fun x => f x.1 x.2) := by
  funext i
  simp only [res, both, Nom.map, Nom.pair]
  rcases p i with ⟨_ | ⟨r, a⟩, k⟩
  · rfl
  · dsimp only
    rcases q r with ⟨_ | ⟨r', b⟩, l⟩ <;> rfl

theorem res_pair (p : Counted α) (q : Counted β) : res (pair p q) = Nom.pair (res p) (res q) := by
  rw [pair, res_both]
  funext i
  simp only [Nom.map]
  cases Nom.pair (res p) (res q) i <;> rfl

theorem res_preceded (p : Counted α) (q : Counted β) : res (preceded p q) = Nom.preceded (res p) (res q) :=
  res_both _ p q

theorem res_terminated (p : Counted α) (q : Counted β) : res (terminated p q) = Nom.terminated (res p) (res q) :=
  res_both _ p q

theorem res_delimited (p : Counted α) (q : Counted β) (r : Counted γ) :
    res (delimited p q r) = Nom.delimited (res p) (res q) (res r) := by
  rw [delimited, res_preceded, res_terminated]; rfl

theorem res_separatedPair (p : Counted α) (s : Counted β) (q : Counted γ) :
    res (separatedPair p s q) = Nom.separatedPair (res p) (res s) (res q) := by
  rw [separatedPair, res_pair, res_preceded]; rfl

theorem res_many0Loop (p : Counted α) : ∀ n i, (many0Loop p n i).1 = Nom.many0Loop (res p) n i
  | 0, _ => rfl
  | n + 1, i => by
    have ih := res_many0Loop p n
    simp only [many0Loop, Nom.many0Loop, res]
    rcases p i with ⟨_ | ⟨r, a⟩, k⟩
    · rfl
    · dsimp only
      split
      · rfl
      · have := ih r
        rw [← this]
        rcases many0Loop p n r with ⟨_ | ⟨r', as⟩, l⟩ <;> rfl

theorem res_many0 (p : Counted α) : res (many0 p) = Nom.many0 (res p) := by
  funext i; exact res_many0Loop p _ i

theorem res_many1 (p : Counted α) : res (many1 p) = Nom.many1 (res p) := by
  rw [many1, res_both, res_many0]
  funext i
  simp only [Nom.map, Nom.pair, Nom.many1]
  cases res p i with
  | none => rfl
  | some x => cases h : Nom.many0 (res p) x.1 <;> simp [h]

theorem res_sepLoop (s : Counted α) (p : Counted β) : ∀ n i, (sepLoop s p n i).1 = Nom.sepLoop (res s) (res p) n i
  | 0, _ => rfl
  | n + 1, i => by
    have ih := res_sepLoop s p n
    simp only [sepLoop, Nom.sepLoop, res]
    rcases s i with ⟨_ | ⟨r, a⟩, j⟩
    · rfl
    · dsimp only
      split
      · rfl
      · rcases p r with ⟨_ | ⟨r', b⟩, k⟩
        · rfl
        · dsimp only
          have := ih r'
          rw [← this]
          rcases sepLoop s p n r' with ⟨_ | ⟨r'', bs⟩, l⟩ <;> rfl

theorem res_separatedList1 (s : Counted α) (p : Counted β) :
    res (separatedList1 s p) = Nom.separatedList1 (res s) (res p) := by
  rw [separatedList1, res_both]
  funext i
  simp only [Nom.map, Nom.pair, Nom.separatedList1]
  cases res p i with
  | none => rfl
  | some x =>
    have : res (fun r => sepLoop s p (r.length + 1) r) x.1 = Nom.sepLoop (res s) (res p) (x.1.length + 1) x.1 :=
      res_sepLoop s p _ _
    simp only [this]
    cases Nom.sepLoop (res s) (res p) (x.1.length + 1) x.1 <;> rfl

theorem res_nonEmpty (p : Counted α) : res (nonEmpty p) = Css.nonEmpty (res p) := by
  funext i
  cases i <;> rfl

theorem res_cmt : res cmt = Css.cmt := by
  simp only [cmt, Css.cmt, res_delimited, res_tag, res_recognize, res_many0, res_alt, res_isNot, res_terminated, res_not]

theorem res_sp : res sp = Css.sp := by
  simp only [sp, Css.sp, res_recognize, res_many0, res_alt, res_takeWhile1, res_cmt]

theorem res_trimmed (p : Counted α) : res (trimmed p) = Css.trimmed (res p) := by
  simp only [trimmed, Css.trimmed, res_delimited, res_sp]

theorem res_ident : res ident = Css.ident := by
  simp only [ident, Css.ident, res_recognize, res_preceded, res_alt, res_tag, res_alpha1, res_takeWhile1, res_many0,
    res_alphanumeric1]

theorem res_string : res Steps.string = Css.string := by
  simp only [Steps.string, Css.string, res_trimmed, res_nonEmpty, res_recognize, res_preceded, res_tag, res_terminated,
    res_many0, res_alt, res_isNot, res_anychar]

theorem res_interpolation : res interpolation = Css.interpolation := by
  simp only [interpolation, Css.interpolation, res_trimmed, res_nonEmpty, res_delimited, res_tag, res_recognize,
    res_preceded, res_alpha1, res_many0, res_alt, res_alphanumeric1]

theorem res_valuePiece : res valuePiece = Css.valuePiece := by
  simp only [valuePiece, Css.valuePiece, res_alt, res_isNot, res_recognize, res_interpolation, res_string, res_preceded,
    res_tag, res_noneOf]

theorem res_styleAttrKey : res styleAttrKey = Css.styleAttrKey := by
  simp only [styleAttrKey, Css.styleAttrKey, res_trimmed, res_ident]

theorem res_styleAttrValue : res styleAttrValue = Css.styleAttrValue := by
  simp only [styleAttrValue, Css.styleAttrValue, res_trimmed, res_map, res_recognize, res_many1, res_valuePiece]

theorem res_styleAttribute : res styleAttribute = Css.styleAttribute := by
  simp only [styleAttribute, Css.styleAttribute, res_trimmed, res_nonEmpty, res_map, res_separatedPair, res_styleAttrKey,
    res_tag, res_styleAttrValue]

theorem res_finalSemicolon (d : Bool) : res (finalSemicolon d) = Css.finalSemicolon d := by
  cases d
  · simp only [finalSemicolon, Css.finalSemicolon, Bool.false_eq_true, if_false, res_opt, res_tag]
  · simp only [finalSemicolon, Css.finalSemicolon, if_true, res_map, res_tag]

theorem res_attributes (d : Bool) : res (attributes d) = Css.attributes d := by
  simp only [attributes, Css.attributes, res_trimmed, res_nonEmpty, res_terminated, res_separatedList1, res_tag,
    res_styleAttribute, res_preceded, res_opt, res_sp, res_finalSemicolon]

theorem res_selectorPiece : res selectorPiece = Css.selectorPiece := by
  simp only [selectorPiece, Css.selectorPiece, res_alt, res_recognize, res_preceded, res_noneOf, res_opt, res_isNot,
    res_string, res_interpolation]

theorem res_selector : res selector = Css.selector := by
  simp only [selector, Css.selector, res_trimmed, res_nonEmpty, res_map, res_recognize, res_many1, res_selectorPiece]

theorem res_condition : res condition = Css.condition := by
  simp only [condition, Css.condition, res_trimmed, res_nonEmpty, res_many1, res_terminated, res_selector, res_opt, res_tag]

theorem res_atRulePiece : res atRulePiece = Css.atRulePiece := by
  simp only [atRulePiece, Css.atRulePiece, res_alt, res_isNot, res_recognize, res_interpolation]

theorem res_atRuleCondition (t : Counted Str) : res (atRuleCondition t) = Css.atRuleCondition (res t) := by
  simp only [atRuleCondition, Css.atRuleCondition, res_trimmed, res_nonEmpty, res_map, res_pair, res_recognize,
    res_terminated, res_tag, res_many1, res_atRulePiece]

theorem res_contentsWith (rb : Counted Css.RuleP) : res (contentsWith rb) = Css.contentsWith (res rb) := by
  simp only [contentsWith, Css.contentsWith, res_map, res_many0, res_alt, res_attributes]

theorem res_ruleBlockWith (c : Counted (List Str)) (rb : Counted Css.RuleP) :
    res (ruleBlockWith c rb) = Css.ruleBlockWith (res c) (res rb) := by
  simp only [ruleBlockWith, Css.ruleBlockWith, res_trimmed, res_nonEmpty, res_separatedPair, res_tag, res_terminated,
    ruleBlockContentsWith, Css.ruleBlockContentsWith, res_contentsWith]

theorem res_otherCondition : res otherCondition = Css.otherCondition := by
  simp only [otherCondition, Css.otherCondition, res_atRuleCondition, res_alt, res_tag]

theorem res_ruleBlock : ∀ n, res (ruleBlock n) = Css.ruleBlock n
  | 0 => rfl
  | n + 1 => by rw [ruleBlock, Css.ruleBlock, res_ruleBlockWith, res_ruleBlock n, res_otherCondition]

theorem res_frame : res (map (recognize condition) (fun m => [Str.trim m])) =
    Nom.map (Nom.recognize Css.condition) (fun m => [Str.trim m]) := by
  simp only [res_map, res_recognize, res_condition]

theorem res_ruleBlockKeyframes (n : Nat) : res (ruleBlockKeyframes n) = Css.ruleBlockKeyframes n := by
  rw [ruleBlockKeyframes, Css.ruleBlockKeyframes, res_ruleBlockWith, res_ruleBlock, res_frame]

theorem res_blockContents (n : Nat) : res (blockContents n) = Css.blockContents n := by
  simp only [blockContents, Css.blockContents, res_trimmed, res_nonEmpty, res_contentsWith, res_ruleBlock]

theorem res_block (n : Nat) : res (block n) = Css.block n := by
  simp only [block, Css.block, res_trimmed, res_nonEmpty, res_map, res_pair, res_condition, res_delimited, res_tag,
    res_blockContents]

theorem res_danglingBlock : res danglingBlock = Css.danglingBlock := by
  simp only [danglingBlock, Css.danglingBlock, res_trimmed, res_nonEmpty, res_map, res_attributes]

theorem res_keyframes (n : Nat) : res (keyframes n) = Css.keyframes n := by
  simp only [keyframes, Css.keyframes, res_map, res_trimmed, res_separatedPair, res_atRuleCondition, res_alt, res_tag,
    res_fail, res_terminated, res_many0, res_ruleBlockKeyframes]

theorem res_atRuleWith (sc : Counted (List ScopeContent)) : res (atRuleWith sc) = Css.atRuleWith (res sc) := by
  simp only [atRuleWith, Css.atRuleWith, res_trimmed, res_nonEmpty, res_map, res_separatedPair, res_atRuleCondition,
    res_alt, res_tag, res_terminated]

theorem res_scopeItemWith (n : Nat) (sc : Counted (List ScopeContent)) :
    res (scopeItemWith n sc) = Css.scopeItemWith n (res sc) := by
  simp only [scopeItemWith, Css.scopeItemWith, res_alt, res_danglingBlock, res_block, res_atRuleWith, res_keyframes]

theorem res_scopeContents : ∀ n, res (scopeContents n) = Css.scopeContents n
  | 0 => rfl
  | n + 1 => by
    rw [scopeContents, Css.scopeContents, res_trimmed, res_nonEmpty, res_many0, res_scopeItemWith, res_scopeContents n]

theorem res_scope (n : Nat) : res (scope n) = Css.scope n := by
  simp only [scope, Css.scope, res_trimmed, res_nonEmpty, res_scopeContents]

theorem res_sheet (n : Nat) : res (sheet n) = Css.sheet n := by
  simp only [sheet, Css.sheet, res_trimmed, res_map, res_many0, res_scope]

theorem parse_res (css : Str) : (parse css).1 = Css.parse css := by
  have : (sheet (css.length + 1) css).1 = Css.sheet (css.length + 1) css := congrFun (res_sheet _) css
  simp only [parse, this, Css.parse, Css.parseWith]


/-! ## What a step count comes from -/

theorem map_none {p : Counted α} {f : α → β} {i : Str} {m : Nat} (h : map p f i = (none, m)) :
    ∃ k, p i = (none, k) ∧ m = k + 1 := by
  unfold map at h
  rcases hp : p i with ⟨_ | ⟨r, a⟩, k⟩ <;> rw [hp] at h <;> simp at h
  exact ⟨k, rfl, h.symm⟩

theorem map_some {p : Counted α} {f : α → β} {i r : Str} {b : β} {m : Nat} (h : map p f i = (some (r, b), m)) :
    ∃ a k, p i = (some (r, a), k) ∧ m = k + (i.length - r.length) + 1 := by
  unfold map at h
  rcases hp : p i with ⟨_ | ⟨r, a⟩, k⟩ <;> rw [hp] at h <;> simp at h
  obtain ⟨⟨rfl, rfl⟩, rfl⟩ := h
  exact ⟨a, k, rfl, rfl⟩

theorem recognize_none {p : Counted α} {i : Str} {m : Nat} (h : recognize p i = (none, m)) :
    ∃ k, p i = (none, k) ∧ m = k + 1 := by
  unfold recognize at h
  rcases hp : p i with ⟨_ | ⟨r, a⟩, k⟩ <;> rw [hp] at h <;> simp at h
  exact ⟨k, rfl, h.symm⟩

theorem recognize_some {p : Counted α} {i r t : Str} {m : Nat} (h : recognize p i = (some (r, t), m)) :
    ∃ a k, p i = (some (r, a), k) ∧ m = k + 1 := by
  unfold recognize at h
  rcases hp : p i with ⟨_ | ⟨r, a⟩, k⟩ <;> rw [hp] at h <;> simp at h
  obtain ⟨⟨rfl, rfl⟩, rfl⟩ := h
  exact ⟨a, k, rfl, rfl⟩

theorem nonEmpty_none {p : Counted α} {i : Str} {m : Nat} (h : nonEmpty p i = (none, m)) :
    (i = [] ∧ m = 1) ∨ ∃ k, p i = (none, k) ∧ m = k + 1 := by
  cases i with
  | nil => simp [nonEmpty] at h; exact .inl ⟨rfl, h.symm⟩
  | cons c t =>
    simp only [nonEmpty, Prod.mk.injEq] at h
    exact .inr ⟨(p (c :: t)).2, by rw [← h.1], h.2.symm⟩

theorem nonEmpty_some {p : Counted α} {i : Str} {x : Str × α} {m : Nat} (h : nonEmpty p i = (some x, m)) :
    ∃ k, p i = (some x, k) ∧ m = k + 1 := by
  cases i with
  | nil => simp [nonEmpty] at h
  | cons c t =>
    simp only [nonEmpty, Prod.mk.injEq] at h
    exact ⟨(p (c :: t)).2, by rw [← h.1], h.2.symm⟩

theorem both_none {f : α → β → γ} {p : Counted α} {q : Counted β} {i : Str} {m : Nat} (h : both f p q i = (none, m)) :
    (∃ k, p i = (none, k) ∧ m = k + 1) ∨
      ∃ r a k l, p i = (some (r, a), k) ∧ q r = (none, l) ∧ m = k + l + 1 := by
  unfold both at h
  rcases hp : p i with ⟨_ | ⟨r, a⟩, k⟩ <;> rw [hp] at h <;> simp at h
  · exact .inl ⟨k, rfl, h.symm⟩
  · rcases hq : q r with ⟨_ | ⟨r', b⟩, l⟩ <;> rw [hq] at h <;> simp at h
    exact .inr ⟨r, a, k, l, rfl, hq, h.symm⟩

theorem both_some {f : α → β → γ} {p : Counted α} {q : Counted β} {i r' : Str} {c : γ} {m : Nat}
    (h : both f p q i = (some (r', c), m)) :
    ∃ r a b k l, p i = (some (r, a), k) ∧ q r = (some (r', b), l) ∧ m = k + l + 1 := by
  unfold both at h
  rcases hp : p i with ⟨_ | ⟨r, a⟩, k⟩ <;> rw [hp] at h <;> simp at h
  rcases hq : q r with ⟨_ | ⟨r', b⟩, l⟩ <;> rw [hq] at h <;> simp at h
  obtain ⟨⟨rfl, rfl⟩, rfl⟩ := h
  exact ⟨r, a, b, k, l, rfl, hq, rfl⟩

theorem alt_none {p q : Counted α} {i : Str} {m : Nat} (h : alt p q i = (none, m)) :
    ∃ k l, p i = (none, k) ∧ q i = (none, l) ∧ m = k + l + 1 := by
  unfold alt at h
  rcases hp : p i with ⟨_ | ⟨r, a⟩, k⟩ <;> rw [hp] at h <;> simp at h
  exact ⟨k, (q i).2, rfl, by rw [← h.1], h.2.symm⟩

theorem alt_some {p q : Counted α} {i : Str} {x : Str × α} {m : Nat} (h : alt p q i = (some x, m)) :
    (∃ k, p i = (some x, k) ∧ m = k + 1) ∨ ∃ k l, p i = (none, k) ∧ q i = (some x, l) ∧ m = k + l + 1 := by
  unfold alt at h
  rcases hp : p i with ⟨_ | ⟨r, a⟩, k⟩ <;> rw [hp] at h <;> simp at h
  · exact .inr ⟨k, (q i).2, rfl, by rw [← h.1], h.2.symm⟩
  · obtain ⟨rfl, rfl⟩ := h
    exact .inl ⟨k, rfl, rfl⟩

theorem res_some {p : Counted α} {i r : Str} {a : α} {k : Nat} (h : p i = (some (r, a), k)) : res p i = some (r, a) := by
  simp [res, h]

theorem res_none {p : Counted α} {i : Str} {k : Nat} (h : p i = (none, k)) : res p i = none := by
  simp [res, h]

/-- A loop of `many0` that ends: the rounds add up, and at its end the parser fails. -/
theorem many0Loop_some {p : Counted α} (hs : Suff (res p)) {w N : Nat}
    (hok : ∀ i r a k, i.length ≤ N → p i = (some (r, a), k) → r.length < i.length → k + 1 ≤ w * (i.length - r.length)) :
    ∀ n i r as m, i.length ≤ N → many0Loop p n i = (some (r, as), m) →
      ∃ k, p r = (none, k) ∧ r.length ≤ i.length ∧ m ≤ w * (i.length - r.length) + k + 1
  | 0, i, r, as, m, _, h => by simp [many0Loop] at h
  | n + 1, i, r, as, m, hN, h => by
    unfold many0Loop at h
    rcases hp : p i with ⟨_ | ⟨r1, a⟩, k⟩ <;> rw [hp] at h <;> simp at h
    · obtain ⟨⟨rfl, -⟩, rfl⟩ := h
      exact ⟨k, hp, Nat.le_refl _, by omega⟩
    · split at h
      · simp at h
      · rename_i hlen
        rcases hq : many0Loop p n r1 with ⟨_ | ⟨r2, as'⟩, l⟩ <;> rw [hq] at h <;> simp at h
        obtain ⟨⟨rfl, -⟩, rfl⟩ := h
        have h4 := hs.le (res_some hp)
        obtain ⟨k', h1, h2, h3⟩ := many0Loop_some hs hok n r1 r2 as' l (by omega) hq
        have h5 := hok i r1 a k hN hp (by omega)
        refine ⟨k', h1, by omega, ?_⟩
        have : i.length - r2.length = (i.length - r1.length) + (r1.length - r2.length) := by omega
        rw [this, Nat.mul_add]
        omega

theorem many0Loop_none {p : Counted α} (hs : Suff (res p)) (hp : Prog (res p)) {n : Nat} {i : Str} {m : Nat}
    (hn : i.length < n) : many0Loop p n i ≠ (none, m) := by
  intro h
  have h1 : (many0Loop p n i).1 = none := by rw [h]
  rw [res_many0Loop, NomP.many0Loop_budget hs n (i.length + 1) i hn (by omega)] at h1
  obtain ⟨r, as, h2, -⟩ := NomP.many0_total hs hp i
  unfold Nom.many0 at h2
  rw [h2] at h1
  cases h1

/-! ## Bounds -/

/-- At most `c` steps. -/
def Const (c : Nat) (p : Counted α) : Prop := ∀ i, (p i).2 ≤ c

/-- At most `c` steps for each character that is read. -/
def Flat (c : Nat) (p : Counted α) : Prop :=
  (∀ i k, p i = (none, k) → k ≤ c) ∧
    ∀ i r a k, p i = (some (r, a), k) → k ≤ c * (i.length - r.length + 1)

/-- At most `c` steps for each character that is read, or for each that is left on failure. -/
def Half (c : Nat) (p : Counted α) : Prop :=
  (∀ i k, p i = (none, k) → k ≤ c * (i.length + 1)) ∧
    ∀ i r a k, p i = (some (r, a), k) → k ≤ c * (i.length - r.length + 1)

/-- Linear. -/
def Lin (c : Nat) (p : Counted α) : Prop := ∀ i, (p i).2 ≤ c * (i.length + 1)

/-- Linear on failure, and linear for each character that is read. -/
def Mid (c : Nat) (p : Counted α) : Prop :=
  (∀ i k, p i = (none, k) → k ≤ c * (i.length + 1)) ∧
    ∀ i r a k, p i = (some (r, a), k) → k ≤ c * ((i.length - r.length + 1) * (i.length + 1))

/-- Quadratic. -/
def Quad (c : Nat) (p : Counted α) : Prop := ∀ i, (p i).2 ≤ c * ((i.length + 1) * (i.length + 1))

/-- Never fails. -/
def Total (p : Counted α) : Prop := ∀ i k, p i ≠ (none, k)

theorem snd_eq {p : Counted α} {i : Str} {x : Option (Str × α)} {k : Nat} (h : p i = (x, k)) : (p i).2 = k := by rw [h]

/-- To bound the steps it is enough to look at both results. -/
theorem cases_le {p : Counted α} {i : Str} {b : Nat} (h1 : ∀ k, p i = (none, k) → k ≤ b)
    (h2 : ∀ r a k, p i = (some (r, a), k) → k ≤ b) : (p i).2 ≤ b := by
  rcases hp : p i with ⟨_ | ⟨r, a⟩, k⟩
  · exact h1 k hp
  · exact h2 r a k hp

theorem Const.flat {c : Nat} {p : Counted α} (h : Const c p) : Flat c p := by
  refine ⟨fun i k hp => ?_, fun i r a k hp => ?_⟩
  · have := h i; rw [hp] at this; exact this
  · have := h i
    rw [hp] at this
    exact Nat.le_trans this (Nat.le_mul_of_pos_right c (by omega))

theorem Flat.half {c : Nat} {p : Counted α} (h : Flat c p) : Half c p :=
  ⟨fun i k hp => Nat.le_trans (h.1 i k hp) (Nat.le_mul_of_pos_right c (by omega)), h.2⟩

theorem Half.lin {c : Nat} {p : Counted α} (h : Half c p) : Lin c p := fun i =>
  cases_le (fun k hp => h.1 i k hp)
    (fun r a k hp => Nat.le_trans (h.2 i r a k hp) (Nat.mul_le_mul_left _ (by omega)))

theorem Lin.mid {c : Nat} {p : Counted α} (h : Lin c p) : Mid c p := by
  refine ⟨fun i k hp => ?_, fun i r a k hp => ?_⟩
  · have := h i; rw [hp] at this; exact this
  · have := h i
    rw [hp] at this
    refine Nat.le_trans this (Nat.mul_le_mul_left _ ?_)
    exact Nat.le_mul_of_pos_left _ (by omega)

theorem Mid.quad {c : Nat} {p : Counted α} (h : Mid c p) : Quad c p := fun i =>
  cases_le (fun k hp => Nat.le_trans (h.1 i k hp) (Nat.mul_le_mul_left _ (Nat.le_mul_of_pos_left _ (by omega))))
    (fun r a k hp => Nat.le_trans (h.2 i r a k hp) (Nat.mul_le_mul_left _ (Nat.mul_le_mul_right _ (by omega))))

/-! ### Constant -/

theorem const_tag (t : Str) : Const (t.length + 1) (tag t) := fun _ => Nat.le_refl _
theorem const_noneOf (s : Str) : Const 2 (noneOf s) := fun _ => Nat.le_refl _
theorem const_anychar : Const 2 anychar := fun _ => Nat.le_refl _
theorem const_fail : Const 1 (fail : Counted α) := fun _ => Nat.le_refl _

theorem const_both {a b : Nat} {f : α → β → γ} {p : Counted α} {q : Counted β} (hp : Const a p) (hq : Const b q) :
    Const (a + b + 1) (both f p q) := by
  intro i
  refine cases_le (fun k h => ?_) (fun r c k h => ?_)
  · rcases both_none h with ⟨k1, h1, rfl⟩ | ⟨r, x, k1, l, h1, h2, rfl⟩
    · have := hp i; rw [h1] at this; simp only at this; omega
    · have e1 := hp i; have e2 := hq r
      rw [h1] at e1; rw [h2] at e2; simp only at e1 e2; omega
  · obtain ⟨r1, x, y, k1, l, h1, h2, rfl⟩ := both_some h
    have e1 := hp i; have e2 := hq r1
    rw [h1] at e1; rw [h2] at e2; simp only at e1 e2; omega

theorem const_alt {a b : Nat} {p q : Counted α} (hp : Const a p) (hq : Const b q) : Const (a + b + 1) (alt p q) := by
  intro i
  have e1 := hp i
  have e2 := hq i
  unfold alt
  rcases h : p i with ⟨_ | ⟨r, x⟩, k⟩ <;> rw [h] at e1 <;> simp only at e1 ⊢ <;> omega

theorem const_not {a : Nat} {p : Counted α} (hp : Const a p) : Const (a + 1) (Steps.not p) := by
  intro i
  have e1 := hp i
  unfold Steps.not
  rcases h : p i with ⟨_ | ⟨r, x⟩, k⟩ <;> rw [h] at e1 <;> simp only at e1 ⊢ <;> omega

theorem const_opt {a : Nat} {p : Counted α} (hp : Const a p) : Const (a + 1) (opt p) := by
  intro i
  have e1 := hp i
  unfold opt
  rcases h : p i with ⟨_ | ⟨r, x⟩, k⟩ <;> rw [h] at e1 <;> simp only at e1 ⊢ <;> omega

theorem const_recognize {a : Nat} {p : Counted α} (hp : Const a p) : Const (a + 1) (recognize p) := by
  intro i
  have e1 := hp i
  unfold recognize
  rcases h : p i with ⟨_ | ⟨r, x⟩, k⟩ <;> rw [h] at e1 <;> simp only at e1 ⊢ <;> omega

/-! ### Flat -/

theorem flat_takeWhile1 (f : Char → Bool) : Flat 2 (takeWhile1 f) := by
  refine ⟨fun i k h => ?_, fun i r a k h => ?_⟩
  · simp only [takeWhile1, Prod.mk.injEq] at h
    have h1 := NomP.takeWhile1_none.1 h.1
    rw [← h.2, h1]
    simp
  · simp only [takeWhile1, Prod.mk.injEq] at h
    obtain ⟨h1, h2, h3⟩ := NomP.takeWhile1_some.1 h.1
    have h4 := List.takeWhile_append_dropWhile (p := f) (l := i)
    have h5 := congrArg List.length h4
    rw [List.length_append] at h5
    rw [← h.2, h2]
    omega

theorem flat_isNot (s : Str) : Flat 2 (isNot s) := flat_takeWhile1 _

theorem flat_alt {a b : Nat} {p q : Counted α} (hp : Flat a p) (hq : Flat b q) : Flat (a + b + 1) (alt p q) := by
  refine ⟨fun i k h => ?_, fun i r x k h => ?_⟩
  · obtain ⟨k1, l, h1, h2, rfl⟩ := alt_none h
    have := hp.1 i k1 h1; have := hq.1 i l h2; omega
  · rw [Nat.add_mul, Nat.add_mul]
    rcases alt_some h with ⟨k1, h1, rfl⟩ | ⟨k1, l, h1, h2, rfl⟩
    · have := hp.2 i r x k1 h1; omega
    · have e1 := hp.1 i k1 h1; have e2 := hq.2 i r x l h2
      have : a ≤ a * (i.length - r.length + 1) := Nat.le_mul_of_pos_right a (by omega)
      omega

theorem flat_recognize {a : Nat} {p : Counted α} (hp : Flat a p) : Flat (a + 1) (recognize p) := by
  refine ⟨fun i k h => ?_, fun i r x k h => ?_⟩
  · obtain ⟨k1, h1, rfl⟩ := recognize_none h
    have := hp.1 i k1 h1; omega
  · obtain ⟨y, k1, h1, rfl⟩ := recognize_some h
    have := hp.2 i r y k1 h1
    rw [Nat.add_mul]; omega

theorem flat_many0 {a : Nat} {p : Counted α} (hs : Suff (res p)) (hpp : Prog (res p)) (hp : Flat a p) :
    Flat (2 * a + 2) (many0 p) := by
  refine ⟨fun i k h => absurd h (many0Loop_none hs hpp (by omega)), fun i r as m h => ?_⟩
  obtain ⟨k, h1, h2, h3⟩ := many0Loop_some hs (w := 2 * a + 1) (N := i.length) (fun i r x k _ h hl => by
    have e := hp.2 i r x k h
    have : i.length - r.length + 1 ≤ 2 * (i.length - r.length) := by omega
    have := Nat.mul_le_mul_left a this
    have e2 : a * (2 * (i.length - r.length)) = 2 * a * (i.length - r.length) := by
      rw [← Nat.mul_assoc, Nat.mul_comm a 2]
    rw [Nat.add_mul]
    omega) _ i r as m (Nat.le_refl _) h
  have e := hp.1 r k h1
  have e1 : (2 * a + 2) * (i.length - r.length + 1) = (2 * a + 1) * (i.length - r.length) + (i.length - r.length) + (2 * a + 2) := by
    rw [Nat.mul_add, Nat.mul_one, show 2 * a + 2 = (2 * a + 1) + 1 from rfl, Nat.add_mul (2 * a + 1) 1]
    omega
  rw [e1]
  omega

theorem total_many0 {p : Counted α} (hs : Suff (res p)) (hpp : Prog (res p)) : Total (many0 p) :=
  fun _ _ h => many0Loop_none hs hpp (by omega) h

/-! ### Half -/

theorem half_both {a b : Nat} {f : α → β → γ} {p : Counted α} {q : Counted β} (hs : Suff (res p)) (hsq : Suff (res q))
    (hp : Half a p) (hq : Half b q) : Half (a + b + 1) (both f p q) := by
  refine ⟨fun i k h => ?_, fun i r c k h => ?_⟩
  · rw [Nat.add_mul, Nat.add_mul]
    rcases both_none h with ⟨k1, h1, rfl⟩ | ⟨r, x, k1, l, h1, h2, rfl⟩
    · have := hp.1 i k1 h1; omega
    · have e1 := hp.2 i r x k1 h1
      have e2 := hq.1 r l h2
      have e3 := hs.le (res_some h1)
      have e4 : a * (i.length - r.length + 1) ≤ a * (i.length + 1) := Nat.mul_le_mul_left _ (by omega)
      have e5 : b * (r.length + 1) ≤ b * (i.length + 1) := Nat.mul_le_mul_left _ (by omega)
      omega
  · rw [Nat.add_mul, Nat.add_mul]
    obtain ⟨r1, x, y, k1, l, h1, h2, rfl⟩ := both_some h
    have e1 := hp.2 i r1 x k1 h1
    have e2 := hq.2 r1 r y l h2
    have e3 := hs.le (res_some h1)
    have e3' := hsq.le (res_some h2)
    have e4 : a * (i.length - r1.length + 1) ≤ a * (i.length - r.length + 1) := Nat.mul_le_mul_left _ (by omega)
    have e5 : b * (r1.length - r.length + 1) ≤ b * (i.length - r.length + 1) := Nat.mul_le_mul_left _ (by omega)
    omega

theorem half_alt {a b : Nat} {p q : Counted α} (hp : Flat a p) (hq : Half b q) : Half (a + b + 1) (alt p q) := by
  refine ⟨fun i k h => ?_, fun i r x k h => ?_⟩
  · obtain ⟨k1, l, h1, h2, rfl⟩ := alt_none h
    have := hp.1 i k1 h1; have := hq.1 i l h2
    have : a ≤ a * (i.length + 1) := Nat.le_mul_of_pos_right a (by omega)
    rw [Nat.add_mul, Nat.add_mul]
    omega
  · rw [Nat.add_mul, Nat.add_mul]
    rcases alt_some h with ⟨k1, h1, rfl⟩ | ⟨k1, l, h1, h2, rfl⟩
    · have := hp.2 i r x k1 h1; omega
    · have e1 := hp.1 i k1 h1; have e2 := hq.2 i r x l h2
      have : a ≤ a * (i.length - r.length + 1) := Nat.le_mul_of_pos_right a (by omega)
      omega

/-! ### Linear -/

theorem lin_many0 {a : Nat} {p : Counted α} (hs : Suff (res p)) (hpp : Prog (res p)) (hp : Half a p) :
    Lin (3 * a + 2) (many0 p) := by
  intro i
  refine cases_le (fun k h => absurd h (many0Loop_none hs hpp (by omega))) (fun r as m h => ?_)
  obtain ⟨k, h1, h2, h3⟩ := many0Loop_some hs (w := 2 * a + 1) (N := i.length) (fun i r x k _ h hl => by
    have e := hp.2 i r x k h
    have : i.length - r.length + 1 ≤ 2 * (i.length - r.length) := by omega
    have := Nat.mul_le_mul_left a this
    have e2 : a * (2 * (i.length - r.length)) = 2 * a * (i.length - r.length) := by
      rw [← Nat.mul_assoc, Nat.mul_comm a 2]
    rw [Nat.add_mul]
    omega) _ i r as m (Nat.le_refl _) h
  have e := hp.1 r k h1
  have e1 : (2 * a + 1) * (i.length - r.length) ≤ (2 * a + 1) * (i.length + 1) := Nat.mul_le_mul_left _ (by omega)
  have e2 : a * (r.length + 1) ≤ a * (i.length + 1) := Nat.mul_le_mul_left _ (by omega)
  have e3 : (3 * a + 2) * (i.length + 1) = (2 * a + 1) * (i.length + 1) + a * (i.length + 1) + (i.length + 1) := by
    rw [show 3 * a + 2 = (2 * a + 1) + a + 1 by omega, Nat.add_mul, Nat.add_mul, Nat.one_mul]
  omega

theorem Lin.mono {a b : Nat} {p : Counted α} (h : Lin a p) (hab : a ≤ b) : Lin b p :=
  fun i => Nat.le_trans (h i) (Nat.mul_le_mul_right _ hab)

theorem Lin.le {a : Nat} {p : Counted α} (h : Lin a p) {i : Str} {x : Option (Str × α)} {k : Nat} (hp : p i = (x, k)) :
    k ≤ a * (i.length + 1) := by
  have := h i; rw [hp] at this; exact this

theorem lin_both {a b : Nat} {f : α → β → γ} {p : Counted α} {q : Counted β} (hs : Suff (res p))
    (hp : Lin a p) (hq : Lin b q) : Lin (a + b + 1) (both f p q) := by
  intro i
  rw [Nat.add_mul, Nat.add_mul]
  refine cases_le (fun k h => ?_) (fun r c k h => ?_)
  · rcases both_none h with ⟨k1, h1, rfl⟩ | ⟨r, x, k1, l, h1, h2, rfl⟩
    · have := hp.le h1; omega
    · have e1 := hp.le h1; have e2 := hq.le h2
      have e5 : b * (r.length + 1) ≤ b * (i.length + 1) := Nat.mul_le_mul_left _ (by have := hs.le (res_some h1); omega)
      omega
  · obtain ⟨r1, x, y, k1, l, h1, h2, rfl⟩ := both_some h
    have e1 := hp.le h1; have e2 := hq.le h2
    have e5 : b * (r1.length + 1) ≤ b * (i.length + 1) := Nat.mul_le_mul_left _ (by have := hs.le (res_some h1); omega)
    omega

theorem lin_alt {a b : Nat} {p q : Counted α} (hp : Lin a p) (hq : Lin b q) : Lin (a + b + 1) (alt p q) := by
  intro i
  rw [Nat.add_mul, Nat.add_mul]
  have e1 := hp i
  have e2 := hq i
  unfold alt
  rcases h : p i with ⟨_ | ⟨r, x⟩, k⟩ <;> rw [h] at e1 <;> simp only at e1 ⊢ <;> omega

theorem lin_recognize {a : Nat} {p : Counted α} (hp : Lin a p) : Lin (a + 1) (recognize p) := by
  intro i
  rw [Nat.add_mul]
  have e1 := hp i
  unfold recognize
  rcases h : p i with ⟨_ | ⟨r, x⟩, k⟩ <;> rw [h] at e1 <;> simp only at e1 ⊢ <;> omega

theorem lin_opt {a : Nat} {p : Counted α} (hp : Lin a p) : Lin (a + 1) (opt p) := by
  intro i
  rw [Nat.add_mul]
  have e1 := hp i
  unfold opt
  rcases h : p i with ⟨_ | ⟨r, x⟩, k⟩ <;> rw [h] at e1 <;> simp only at e1 ⊢ <;> omega

theorem lin_map {a : Nat} {p : Counted α} {f : α → β} (hp : Lin a p) : Lin (a + 1) (map p f) := by
  intro i
  rw [Nat.add_mul]
  have e1 := hp i
  unfold map
  rcases h : p i with ⟨_ | ⟨r, x⟩, k⟩ <;> rw [h] at e1 <;> simp only at e1 ⊢ <;> omega

theorem lin_nonEmpty {a : Nat} {p : Counted α} (hp : Lin a p) : Lin (a + 1) (nonEmpty p) := by
  intro i
  rw [Nat.add_mul]
  have e1 := hp i
  cases i with
  | nil => simp only [nonEmpty]; omega
  | cons c t => simp only [nonEmpty]; simp only [List.length_cons] at e1 ⊢; omega

/-! ### In between -/

theorem mid_left {a b : Nat} {f : α → β → γ} {p : Counted α} {q : Counted β} (hs : Suff (res p)) (hsq : Suff (res q))
    (hp : Lin a p) (hq : Mid b q) : Mid (a + b + 1) (both f p q) := by
  refine ⟨fun i k h => ?_, fun i r c k h => ?_⟩
  · rw [Nat.add_mul, Nat.add_mul]
    rcases both_none h with ⟨k1, h1, rfl⟩ | ⟨r, x, k1, l, h1, h2, rfl⟩
    · have := hp.le h1; omega
    · have e1 := hp.le h1
      have e2 := hq.1 r l h2
      have e5 : b * (r.length + 1) ≤ b * (i.length + 1) := Nat.mul_le_mul_left _ (by have := hs.le (res_some h1); omega)
      omega
  · rw [Nat.add_mul, Nat.add_mul]
    obtain ⟨r1, x, y, k1, l, h1, h2, rfl⟩ := both_some h
    have e1 := hp.le h1
    have e2 := hq.2 r1 r y l h2
    have e3 := hs.le (res_some h1)
    have e3' := hsq.le (res_some h2)
    have e4 : a * (i.length + 1) ≤ a * ((i.length - r.length + 1) * (i.length + 1)) :=
      Nat.mul_le_mul_left _ (Nat.le_mul_of_pos_left _ (by omega))
    have e5 : b * ((r1.length - r.length + 1) * (r1.length + 1)) ≤ b * ((i.length - r.length + 1) * (i.length + 1)) :=
      Nat.mul_le_mul_left _ (Nat.mul_le_mul (by omega) (by omega))
    have e6 : 0 < (i.length - r.length + 1) * (i.length + 1) := Nat.mul_pos (by omega) (by omega)
    omega

theorem mid_right {a b : Nat} {f : α → β → γ} {p : Counted α} {q : Counted β} (hs : Suff (res p)) (hsq : Suff (res q))
    (hp : Mid a p) (hq : Lin b q) (ht : Total q) : Mid (a + b + 1) (both f p q) := by
  refine ⟨fun i k h => ?_, fun i r c k h => ?_⟩
  · rw [Nat.add_mul, Nat.add_mul]
    rcases both_none h with ⟨k1, h1, rfl⟩ | ⟨r, x, k1, l, h1, h2, rfl⟩
    · have := hp.1 i k1 h1; omega
    · exact absurd h2 (ht r l)
  · rw [Nat.add_mul, Nat.add_mul]
    obtain ⟨r1, x, y, k1, l, h1, h2, rfl⟩ := both_some h
    have e1 := hp.2 i r1 x k1 h1
    have e2 := hq.le h2
    have e3 := hs.le (res_some h1)
    have e3' := hsq.le (res_some h2)
    have e4 : b * (r1.length + 1) ≤ b * ((i.length - r.length + 1) * (i.length + 1)) :=
      Nat.mul_le_mul_left _ (Nat.le_trans (by omega : r1.length + 1 ≤ i.length + 1) (Nat.le_mul_of_pos_left _ (by omega)))
    have e5 : a * ((i.length - r1.length + 1) * (i.length + 1)) ≤ a * ((i.length - r.length + 1) * (i.length + 1)) :=
      Nat.mul_le_mul_left _ (Nat.mul_le_mul (by omega) (by omega))
    have e6 : 0 < (i.length - r.length + 1) * (i.length + 1) := Nat.mul_pos (by omega) (by omega)
    omega

theorem mid_recognize {a : Nat} {p : Counted α} (hp : Mid a p) : Mid (a + 1) (recognize p) := by
  refine ⟨fun i k h => ?_, fun i r x k h => ?_⟩
  · obtain ⟨k1, h1, rfl⟩ := recognize_none h
    have := hp.1 i k1 h1
    rw [Nat.add_mul]; omega
  · obtain ⟨y, k1, h1, rfl⟩ := recognize_some h
    have := hp.2 i r y k1 h1
    have e6 : 0 < (i.length - r.length + 1) * (i.length + 1) := Nat.mul_pos (by omega) (by omega)
    rw [Nat.add_mul]; omega

theorem mid_map {a : Nat} {p : Counted α} {f : α → β} (hp : Mid a p) : Mid (a + 1) (map p f) := by
  refine ⟨fun i k h => ?_, fun i r x k h => ?_⟩
  · obtain ⟨k1, h1, rfl⟩ := map_none h
    have := hp.1 i k1 h1
    rw [Nat.add_mul]; omega
  · obtain ⟨y, k1, h1, rfl⟩ := map_some h
    have := hp.2 i r y k1 h1
    have e6 : i.length - r.length + 1 ≤ (i.length - r.length + 1) * (i.length + 1) := Nat.le_mul_of_pos_right _ (by omega)
    rw [Nat.add_mul]; omega

theorem mid_nonEmpty {a : Nat} {p : Counted α} (hp : Mid a p) : Mid (a + 1) (nonEmpty p) := by
  refine ⟨fun i k h => ?_, fun i r x k h => ?_⟩
  · rw [Nat.add_mul]
    rcases nonEmpty_none h with ⟨rfl, rfl⟩ | ⟨k1, h1, rfl⟩
    · simp
    · have := hp.1 i k1 h1; omega
  · obtain ⟨k1, h1, rfl⟩ := nonEmpty_some h
    have := hp.2 i r x k1 h1
    have e6 : 0 < (i.length - r.length + 1) * (i.length + 1) := Nat.mul_pos (by omega) (by omega)
    rw [Nat.add_mul]; omega

/-- One round of a loop, in terms of the length `N` of the whole text. -/
theorem mid_round {a c n N k : Nat} (h : k ≤ a * ((c + 1) * (n + 1))) (hn : n ≤ N) (hc : 0 < c) :
    k + 1 ≤ ((2 * a + 1) * (N + 1)) * c := by
  have e1 : (c + 1) * (n + 1) ≤ (2 * c) * (N + 1) := Nat.mul_le_mul (by omega) (by omega)
  have e2 := Nat.mul_le_mul_left a e1
  have e3 : ((2 * a + 1) * (N + 1)) * c = a * ((2 * c) * (N + 1)) + (N + 1) * c := by
    rw [Nat.mul_assoc, Nat.add_mul, Nat.one_mul]
    congr 1
    rw [Nat.mul_assoc 2 c, Nat.mul_left_comm a 2, Nat.mul_assoc 2 a, Nat.mul_comm c]
  have e4 : 0 < (N + 1) * c := Nat.mul_pos (by omega) hc
  omega

theorem mid_loop {a n1 n2 n3 k l m : Nat} (h1 : n2 ≤ n1) (h2 : n3 ≤ n2)
    (hk : k ≤ a * ((n1 - n2 + 1) * (n1 + 1))) (hm : m ≤ ((2 * a + 1) * (n1 + 1)) * (n2 - n3) + l + 1)
    (hl : l ≤ a * (n3 + 1)) : k + m + 1 ≤ (4 * a + 3) * ((n1 - n3 + 1) * (n1 + 1)) := by
  have e1 : a * ((n1 - n2 + 1) * (n1 + 1)) ≤ a * ((n1 - n3 + 1) * (n1 + 1)) :=
    Nat.mul_le_mul_left _ (Nat.mul_le_mul_right _ (by omega))
  have e2 : ((2 * a + 1) * (n1 + 1)) * (n2 - n3) ≤ (2 * a + 1) * ((n1 - n3 + 1) * (n1 + 1)) := by
    rw [Nat.mul_assoc, Nat.mul_comm (n1 + 1)]
    exact Nat.mul_le_mul_left _ (Nat.mul_le_mul_right _ (by omega))
  have e3 : a * (n3 + 1) ≤ a * ((n1 - n3 + 1) * (n1 + 1)) :=
    Nat.mul_le_mul_left _ (Nat.le_trans (by omega : n3 + 1 ≤ n1 + 1) (Nat.le_mul_of_pos_left _ (by omega)))
  have e4 : 0 < (n1 - n3 + 1) * (n1 + 1) := Nat.mul_pos (by omega) (by omega)
  have e5 : (4 * a + 3) * ((n1 - n3 + 1) * (n1 + 1)) = a * ((n1 - n3 + 1) * (n1 + 1)) +
      (2 * a + 1) * ((n1 - n3 + 1) * (n1 + 1)) + a * ((n1 - n3 + 1) * (n1 + 1)) + 2 * ((n1 - n3 + 1) * (n1 + 1)) := by
    rw [show 4 * a + 3 = a + (2 * a + 1) + a + 2 by omega]
    simp only [Nat.add_mul]
  omega

theorem mid_many1 {a : Nat} {p : Counted α} (hs : Suff (res p)) (hpp : Prog (res p)) (hp : Mid a p) :
    Mid (4 * a + 3) (many1 p) := by
  refine ⟨fun i k h => ?_, fun i r c k h => ?_⟩
  · rcases both_none h with ⟨k1, h1, rfl⟩ | ⟨r, x, k1, l, h1, h2, rfl⟩
    · have := hp.1 i k1 h1
      have e : (4 * a + 3) * (i.length + 1) = a * (i.length + 1) + (3 * a + 3) * (i.length + 1) := by
        rw [← Nat.add_mul]; congr 1; omega
      have : 0 < (3 * a + 3) * (i.length + 1) := Nat.mul_pos (by omega) (by omega)
      omega
    · exact absurd h2 (total_many0 hs hpp r l)
  · obtain ⟨r1, x, y, k1, l, h1, h2, rfl⟩ := both_some h
    have e1 := hp.2 i r1 x k1 h1
    have e3 := hs.le (res_some h1)
    obtain ⟨k', h3, h4, h5⟩ := many0Loop_some hs (w := (2 * a + 1) * (i.length + 1)) (N := i.length)
      (fun j r x k hN h hl => mid_round (hp.2 j r x k h) hN (by omega)) _ r1 r y l e3 h2
    exact mid_loop e3 h4 e1 h5 (hp.1 r k' h3)

/-- The loop of `separated_list1`. -/
theorem sepLoop_some {s : Counted α} {p : Counted β} (hss : Suff (res s)) (hs : Suff (res p)) {a b : Nat}
    (hb : Const b s) (hp : Mid a p) {N : Nat} :
    ∀ n i r as m, i.length ≤ N → sepLoop s p n i = (some (r, as), m) →
      r.length ≤ i.length ∧ m ≤ ((2 * a + 1) * (N + 1) + b + 1) * (i.length - r.length) + a * (N + 1) + b + 1
  | 0, i, r, as, m, _, h => by simp [sepLoop] at h
  | n + 1, i, r, as, m, hN, h => by
    unfold sepLoop at h
    have b1 := hb i
    rcases hq : s i with ⟨_ | ⟨r1, x⟩, j⟩ <;> rw [hq] at h b1 <;> simp only at b1 <;> simp at h
    · obtain ⟨⟨rfl, -⟩, rfl⟩ := h
      exact ⟨Nat.le_refl _, by omega⟩
    · have l1 := hss.le (res_some hq)
      split at h
      · simp at h
      · rename_i hlen
        rcases hp1 : p r1 with ⟨_ | ⟨r2, y⟩, k⟩ <;> rw [hp1] at h <;> simp at h
        · obtain ⟨⟨rfl, -⟩, rfl⟩ := h
          have := hp.1 r1 k hp1
          have : a * (r1.length + 1) ≤ a * (N + 1) := Nat.mul_le_mul_left _ (by omega)
          exact ⟨Nat.le_refl _, by omega⟩
        · have l2 := hs.le (res_some hp1)
          rcases hl : sepLoop s p n r2 with ⟨_ | ⟨r3, as'⟩, l⟩ <;> rw [hl] at h <;> simp at h
          obtain ⟨⟨rfl, -⟩, rfl⟩ := h
          obtain ⟨h1, h2⟩ := sepLoop_some hss hs hb hp (N := N) n r2 r3 as' l (by omega) hl
          refine ⟨by omega, ?_⟩
          have e1 := hp.2 r1 r2 y k hp1
          have e2 : a * ((r1.length - r2.length + 1) * (r1.length + 1)) ≤ a * ((i.length - r2.length + 1) * (N + 1)) :=
            Nat.mul_le_mul_left _ (Nat.mul_le_mul (by omega) (by omega))
          have e3 := mid_round (c := i.length - r2.length) (n := N) (N := N) (Nat.le_trans e1 e2) (Nat.le_refl _) (by omega)
          have e4 : i.length - r3.length = (i.length - r2.length) + (r2.length - r3.length) := by omega
          have e5 : b + 1 ≤ (b + 1) * (i.length - r2.length) := Nat.le_mul_of_pos_right _ (by omega)
          have e6 : ((2 * a + 1) * (N + 1) + b + 1) * (i.length - r2.length) =
              ((2 * a + 1) * (N + 1)) * (i.length - r2.length) + (b + 1) * (i.length - r2.length) := by
            rw [Nat.add_assoc, Nat.add_mul]
          rw [e4, Nat.mul_add, e6]
          omega

theorem sepLoop_none {s : Counted α} {p : Counted β} (hss : Suff (res s)) (hsp : Prog (res s)) (hs : Suff (res p)) :
    ∀ n i m, i.length < n → sepLoop s p n i ≠ (none, m)
  | 0, i, m, h => absurd h (by omega)
  | n + 1, i, m, hn => by
    intro h
    unfold sepLoop at h
    rcases hq : s i with ⟨_ | ⟨r1, x⟩, j⟩ <;> rw [hq] at h <;> simp at h
    have l1 := hsp _ _ _ (res_some hq)
    split at h
    · omega
    · rcases hp1 : p r1 with ⟨_ | ⟨r2, y⟩, k⟩ <;> rw [hp1] at h <;> simp at h
      have l2 := hs.le (res_some hp1)
      rcases hl : sepLoop s p n r2 with ⟨_ | ⟨r3, as'⟩, l⟩ <;> rw [hl] at h <;> simp at h
      exact sepLoop_none hss hsp hs n r2 l (by omega) hl

theorem mid_separatedList1 {s : Counted α} {p : Counted β} (hss : Suff (res s)) (hsp : Prog (res s)) (hs : Suff (res p))
    {a b : Nat} (hb : Const b s) (hp : Mid a p) : Mid (4 * a + 2 * b + 4) (separatedList1 s p) := by
  refine ⟨fun i k h => ?_, fun i r c k h => ?_⟩
  · rcases both_none h with ⟨k1, h1, rfl⟩ | ⟨r, x, k1, l, h1, h2, rfl⟩
    · have := hp.1 i k1 h1
      have e : (4 * a + 2 * b + 4) * (i.length + 1) = a * (i.length + 1) + (3 * a + 2 * b + 4) * (i.length + 1) := by
        rw [← Nat.add_mul]; congr 1; omega
      have : 0 < (3 * a + 2 * b + 4) * (i.length + 1) := Nat.mul_pos (by omega) (by omega)
      omega
    · exact absurd h2 (sepLoop_none hss hsp hs _ r l (by omega))
  · obtain ⟨r1, x, y, k1, l, h1, h2, rfl⟩ := both_some h
    have e1 := hp.2 i r1 x k1 h1
    have e3 := hs.le (res_some h1)
    obtain ⟨h4, h5⟩ := sepLoop_some hss hs hb hp (N := i.length) _ r1 r y l e3 h2
    have f1 : a * ((i.length - r1.length + 1) * (i.length + 1)) ≤ a * ((i.length - r.length + 1) * (i.length + 1)) :=
      Nat.mul_le_mul_left _ (Nat.mul_le_mul_right _ (by omega))
    have f2 : ((2 * a + 1) * (i.length + 1) + b + 1) * (r1.length - r.length) ≤
        (2 * a + b + 2) * ((i.length - r.length + 1) * (i.length + 1)) := by
      rw [show (i.length - r.length + 1) * (i.length + 1) = (i.length + 1) * (i.length - r.length + 1) from Nat.mul_comm _ _,
        ← Nat.mul_assoc]
      refine Nat.mul_le_mul ?_ (by omega)
      rw [show 2 * a + b + 2 = (2 * a + 1) + (b + 1) by omega, Nat.add_mul (2 * a + 1)]
      have : b + 1 ≤ (b + 1) * (i.length + 1) := Nat.le_mul_of_pos_right _ (by omega)
      omega
    have f3 : a * (i.length + 1) ≤ a * ((i.length - r.length + 1) * (i.length + 1)) :=
      Nat.mul_le_mul_left _ (Nat.le_mul_of_pos_left _ (by omega))
    have f4 : b + 2 ≤ (b + 2) * ((i.length - r.length + 1) * (i.length + 1)) :=
      Nat.le_mul_of_pos_right _ (Nat.mul_pos (by omega) (by omega))
    have f5 : (4 * a + 2 * b + 4) * ((i.length - r.length + 1) * (i.length + 1)) =
        a * ((i.length - r.length + 1) * (i.length + 1)) + (2 * a + b + 2) * ((i.length - r.length + 1) * (i.length + 1)) +
        a * ((i.length - r.length + 1) * (i.length + 1)) + (b + 2) * ((i.length - r.length + 1) * (i.length + 1)) := by
      simp only [← Nat.add_mul]; congr 1; omega
    omega

/-! ### Quadratic -/

theorem Quad.le {a : Nat} {p : Counted α} (h : Quad a p) {i : Str} {x : Option (Str × α)} {k : Nat} (hp : p i = (x, k)) :
    k ≤ a * ((i.length + 1) * (i.length + 1)) := by
  have := h i; rw [hp] at this; exact this

theorem quad_both {a b : Nat} {f : α → β → γ} {p : Counted α} {q : Counted β} (hs : Suff (res p))
    (hp : Quad a p) (hq : Quad b q) : Quad (a + b + 1) (both f p q) := by
  intro i
  rw [Nat.add_mul, Nat.add_mul]
  have e6 : 0 < (i.length + 1) * (i.length + 1) := Nat.mul_pos (by omega) (by omega)
  have key : ∀ r x k, p i = (some (r, x), k) → b * ((r.length + 1) * (r.length + 1)) ≤ b * ((i.length + 1) * (i.length + 1)) := by
    intro r x k h1
    have := hs.le (res_some h1)
    exact Nat.mul_le_mul_left _ (Nat.mul_le_mul (by omega) (by omega))
  refine cases_le (fun k h => ?_) (fun r c k h => ?_)
  · rcases both_none h with ⟨k1, h1, rfl⟩ | ⟨r, x, k1, l, h1, h2, rfl⟩
    · have := hp.le h1; omega
    · have e1 := hp.le h1; have e2 := hq.le h2; have := key _ _ _ h1
      omega
  · obtain ⟨r1, x, y, k1, l, h1, h2, rfl⟩ := both_some h
    have e1 := hp.le h1; have e2 := hq.le h2; have := key _ _ _ h1
    omega

theorem quad_map {a : Nat} {p : Counted α} {f : α → β} (hp : Quad a p) : Quad (a + 1) (map p f) := by
  intro i
  rw [Nat.add_mul]
  have e1 := hp i
  have e6 : i.length + 1 ≤ (i.length + 1) * (i.length + 1) := Nat.le_mul_of_pos_right _ (by omega)
  unfold map
  rcases h : p i with ⟨_ | ⟨r, x⟩, k⟩ <;> rw [h] at e1 <;> simp only at e1 ⊢ <;> omega

theorem quad_nonEmpty {a : Nat} {p : Counted α} (hp : Quad a p) : Quad (a + 1) (nonEmpty p) := by
  intro i
  rw [Nat.add_mul]
  have e1 := hp i
  cases i with
  | nil => simp only [nonEmpty]; simp
  | cons c t =>
    have e6 : 0 < ((c :: t).length + 1) * ((c :: t).length + 1) := Nat.mul_pos (by omega) (by omega)
    simp only [nonEmpty]; omega

/-! ## The parsers without recursion -/

theorem suff_of {p : Counted α} {q : Parser α} (h : res p = q) (hq : Suff q) : Suff (res p) := h ▸ hq
theorem prog_of {p : Counted α} {q : Parser α} (h : res p = q) (hq : Prog q) : Prog (res p) := h ▸ hq

theorem suff_tag (t : Str) : Suff (res (tag t)) := NomP.suff_tag t

theorem flat_cmtPiece : Flat 9 (alt (isNot (c! "*")) (terminated (tag (c! "*")) (Steps.not (tag (c! "/"))))) :=
  flat_alt (flat_isNot _) (const_both (const_tag _) (const_not (const_tag _))).flat

theorem res_cmtPiece : res (alt (isNot (c! "*")) (terminated (tag (c! "*")) (Steps.not (tag (c! "/"))))) = ParserP.cmtPiece := by
  simp only [res_alt, res_isNot, res_terminated, res_not, res_tag, ParserP.cmtPiece]

theorem half_cmt : Half 29 cmt := by
  have hs := suff_of res_cmtPiece ParserP.suff_cmtPiece
  have hp := prog_of res_cmtPiece ParserP.prog_cmtPiece
  have hm := flat_recognize (flat_many0 hs hp flat_cmtPiece)
  have hms : Suff (res (recognize (many0 (alt (isNot (c! "*")) (terminated (tag (c! "*")) (Steps.not (tag (c! "/")))))))) := by
    rw [res_recognize, res_many0]
    exact NomP.suff_recognize (NomP.suff_many0 hs)
  have ht : Suff (res (terminated (recognize (many0 (alt (isNot (c! "*")) (terminated (tag (c! "*")) (Steps.not (tag (c! "/")))))))
      (tag (c! "*/")))) := by
    rw [res_terminated]
    exact NomP.suff_terminated hms (suff_tag _)
  exact half_both (suff_tag _) ht (const_tag _).flat.half (half_both hms (suff_tag _) hm.half (const_tag _).flat.half)

theorem res_spPiece : res (alt (takeWhile1 (fun c => (c! " \t\r\n").elem c)) cmt) =
    Nom.alt (Nom.takeWhile1 (fun c => (c! " \t\r\n").elem c)) Css.cmt := by
  simp only [res_alt, res_takeWhile1, res_cmt]

theorem lin_sp : Lin 99 sp :=
  lin_recognize (lin_many0 (suff_of res_spPiece ParserP.suff_spPiece) (prog_of res_spPiece ParserP.prog_spPiece)
    (half_alt (flat_takeWhile1 _) half_cmt))

theorem suff_sp : Suff (res sp) := suff_of res_sp ParserP.suff_sp

theorem total_sp : Total sp := by
  intro i k h
  obtain ⟨t, ht⟩ := ParserP.sp_total i
  have := res_none h
  rw [res_sp, ht] at this
  cases this

theorem lin_trimmed {a : Nat} {p : Counted α} (hs : Suff (res p)) (hp : Lin a p) : Lin (a + 200) (trimmed p) :=
  Lin.mono (lin_both suff_sp lin_sp (lin_both hs hp lin_sp)) (by omega)

theorem mid_trimmed {a : Nat} {p : Counted α} (hs : Suff (res p)) (hp : Mid a p) : Mid (a + 200) (trimmed p) := by
  have hs' : Suff (res (terminated p sp)) := by
    rw [res_terminated]
    exact NomP.suff_terminated hs suff_sp
  have := mid_left (f := fun _ b => b) suff_sp hs' lin_sp (mid_right (f := fun a _ => a) hs suff_sp hp lin_sp total_sp)
  rwa [show 99 + (a + 99 + 1) + 1 = a + 200 by omega] at this

theorem quad_trimmed {a : Nat} {p : Counted α} (hs : Suff (res p)) (hp : Quad a p) : Quad (a + 200) (trimmed p) := by
  have := quad_both (f := fun _ b => b) suff_sp lin_sp.mid.quad (quad_both (f := fun a _ => a) hs hp lin_sp.mid.quad)
  rwa [show 99 + (a + 99 + 1) + 1 = a + 200 by omega] at this

theorem lin_ident : Lin 53 ident := by
  have hs : Suff (res (alt (tag (c! "-")) (alt (tag (c! "_")) (alt alphanumeric1 (takeWhile1 Css.nonAscii))))) := by
    simp only [res_alt, res_tag, res_alphanumeric1, res_takeWhile1]
    exact NomP.suff_alt (NomP.suff_tag _) (NomP.suff_alt (NomP.suff_tag _) (NomP.suff_alt (NomP.suff_takeWhile1 _) (NomP.suff_takeWhile1 _)))
  have hp : Prog (res (alt (tag (c! "-")) (alt (tag (c! "_")) (alt alphanumeric1 (takeWhile1 Css.nonAscii))))) := by
    simp only [res_alt, res_tag, res_alphanumeric1, res_takeWhile1]
    exact NomP.prog_alt (NomP.prog_tag (by simp)) (NomP.prog_alt (NomP.prog_tag (by simp))
      (NomP.prog_alt (NomP.prog_takeWhile1 _) (NomP.prog_takeWhile1 _)))
  have hs' : Suff (res (alt (tag (c! "-")) (alt (tag (c! "_")) (alt alpha1 (takeWhile1 Css.nonAscii))))) := by
    simp only [res_alt, res_tag, res_alpha1, res_takeWhile1]
    exact NomP.suff_alt (NomP.suff_tag _) (NomP.suff_alt (NomP.suff_tag _) (NomP.suff_alt (NomP.suff_takeWhile1 _) (NomP.suff_takeWhile1 _)))
  have f1 : Flat 11 (alt (tag (c! "-")) (alt (tag (c! "_")) (alt alpha1 (takeWhile1 Css.nonAscii)))) :=
    flat_alt (const_tag _).flat (flat_alt (const_tag _).flat (flat_alt (flat_takeWhile1 _) (flat_takeWhile1 _)))
  have f2 : Flat 11 (alt (tag (c! "-")) (alt (tag (c! "_")) (alt alphanumeric1 (takeWhile1 Css.nonAscii)))) :=
    flat_alt (const_tag _).flat (flat_alt (const_tag _).flat (flat_alt (flat_takeWhile1 _) (flat_takeWhile1 _)))
  exact Lin.mono (lin_recognize (lin_both hs' f1.half.lin (flat_many0 hs hp f2).half.lin)) (by decide)

theorem lin_string : Lin 300 Steps.string := by
  have e : res (alt (isNot (c! "\\\"")) (recognize (preceded (tag (c! "\\")) anychar))) =
      Nom.alt (Nom.isNot (c! "\\\"")) (Nom.recognize (Nom.preceded (Nom.tag (c! "\\")) Nom.anychar)) := by
    simp only [res_alt, res_isNot, res_recognize, res_preceded, res_tag, res_anychar]
  have hs := suff_of e ParserP.suff_stringPiece
  have hp := prog_of e ParserP.prog_stringPiece
  have hf : Flat 9 (alt (isNot (c! "\\\"")) (recognize (preceded (tag (c! "\\")) anychar))) :=
    flat_alt (flat_isNot _) (const_recognize (const_both (const_tag _) const_anychar)).flat
  have hms : Suff (res (many0 (alt (isNot (c! "\\\"")) (recognize (preceded (tag (c! "\\")) anychar))))) := by
    rw [res_many0]; exact NomP.suff_many0 hs
  refine Lin.mono (lin_trimmed ?_ (lin_nonEmpty (lin_recognize (lin_both (suff_tag _) (const_tag _).flat.half.lin
    (lin_both hms (flat_many0 hs hp hf).half.lin (const_tag _).flat.half.lin))))) (by decide)
  rw [res_nonEmpty, res_recognize, res_preceded, res_terminated]
  exact ParserP.suff_nonEmpty (NomP.suff_recognize (NomP.suff_preceded (suff_tag _) (NomP.suff_terminated hms (suff_tag _))))

theorem suff_string : Suff (res Steps.string) := suff_of res_string ParserP.suff_string

theorem lin_interpolation : Lin 450 interpolation := by
  have hs : Suff (res (alt alphanumeric1 (tag (c! "_")))) := by
    rw [res_alt]; exact NomP.suff_alt (NomP.suff_takeWhile1 _) (NomP.suff_tag _)
  have hp : Prog (res (alt alphanumeric1 (tag (c! "_")))) := by
    rw [res_alt]; exact NomP.prog_alt (NomP.prog_takeWhile1 _) (NomP.prog_tag (by simp))
  have hf : Flat 5 (alt alphanumeric1 (tag (c! "_"))) := flat_alt (flat_takeWhile1 _) (const_tag _).flat
  have hi : Suff (res (recognize (preceded alpha1 (many0 (alt alphanumeric1 (tag (c! "_"))))))) := by
    rw [res_recognize, res_preceded, res_many0]
    exact NomP.suff_recognize (NomP.suff_preceded (NomP.suff_takeWhile1 _) (NomP.suff_many0 hs))
  have ht : Suff (res (trimmed (recognize (preceded alpha1 (many0 (alt alphanumeric1 (tag (c! "_")))))))) := by
    rw [res_trimmed]; exact ParserP.suff_trimmed hi
  have hl := lin_recognize (lin_both (f := fun _ b => b) (p := alpha1) (NomP.suff_takeWhile1 _) (flat_takeWhile1 _).half.lin
    (flat_many0 hs hp hf).half.lin)
  refine Lin.mono (lin_trimmed ?_ (lin_nonEmpty (lin_both (suff_tag _) (const_tag _).flat.half.lin
    (lin_both ht (lin_trimmed hi hl) (const_tag _).flat.half.lin)))) (by decide)
  rw [res_nonEmpty]
  refine ParserP.suff_nonEmpty ?_
  exact (res_delimited _ _ _).symm ▸ NomP.suff_delimited (suff_tag _) ht (suff_tag _)

theorem suff_interpolation : Suff (res interpolation) := suff_of res_interpolation ParserP.suff_interpolation

theorem lin_valuePiece : Lin 770 valuePiece :=
  Lin.mono (lin_alt (flat_isNot _).half.lin (lin_alt (lin_recognize lin_interpolation) (lin_alt lin_string
    (const_recognize (const_both (const_tag _) (const_noneOf _))).flat.half.lin))) (by decide)

theorem mid_styleAttrValue : Mid 3285 styleAttrValue := by
  have hs := suff_of res_valuePiece ParserP.suff_valuePiece
  have hp := prog_of res_valuePiece ParserP.prog_valuePiece
  refine mid_trimmed ?_ (mid_map (mid_recognize (mid_many1 hs hp lin_valuePiece.mid)))
  rw [res_map, res_recognize, res_many1]
  exact NomP.suff_map (NomP.suff_recognize (NomP.suff_many1 hs))

theorem suff_styleAttrKey : Suff (res styleAttrKey) := by
  rw [res_styleAttrKey]; exact ParserP.suff_trimmed ParserP.suff_ident

theorem mid_styleAttribute : Mid 3744 styleAttribute := by
  have hv : Suff (res styleAttrValue) := suff_of res_styleAttrValue ParserP.suff_styleAttrValue
  have hsv : Suff (res (preceded (tag (c! ":")) styleAttrValue)) := by
    rw [res_preceded]; exact NomP.suff_preceded (suff_tag _) hv
  refine mid_trimmed ?_ (mid_nonEmpty (mid_map (mid_left suff_styleAttrKey hsv
    (lin_trimmed (suff_of res_ident ParserP.suff_ident) lin_ident)
    (mid_left (suff_tag _) hv (const_tag _).flat.half.lin mid_styleAttrValue))))
  rw [res_nonEmpty, res_map, res_separatedPair, res_styleAttrKey, res_styleAttrValue]
  exact ParserP.suff_nonEmpty (NomP.suff_map ParserP.suff_attributePair)

theorem quad_attributes (d : Bool) : Quad 15300 (attributes d) := by
  have hs : Suff (res styleAttribute) := suff_of res_styleAttribute ParserP.suff_styleAttribute
  have hl := mid_separatedList1 (suff_tag (c! ";")) (NomP.prog_tag (by simp)) hs (const_tag (c! ";")) mid_styleAttribute
  have hl' : Suff (res (separatedList1 (tag (c! ";")) styleAttribute)) := by
    rw [res_separatedList1]; exact NomP.suff_separatedList1 (suff_tag _) hs
  have ho : Suff (res (opt sp)) := by rw [res_opt]; exact NomP.suff_opt suff_sp
  have hf : Lin 3 (finalSemicolon d) := by
    cases d
    · exact (const_opt (const_tag _)).flat.half.lin
    · exact lin_map (const_tag _).flat.half.lin
  have hsf : Suff (res (finalSemicolon d)) := suff_of (res_finalSemicolon d) (ParserP.suff_finalSemicolon d)
  have := quad_trimmed (p := nonEmpty (terminated (separatedList1 (tag (c! ";")) styleAttribute)
      (preceded (opt sp) (finalSemicolon d)))) ?_ (quad_nonEmpty (quad_both hl' hl.quad
        (lin_both ho (lin_opt lin_sp) hf).mid.quad))
  · exact fun i => Nat.le_trans (this i) (Nat.mul_le_mul_right _ (by decide))
  · rw [res_nonEmpty, res_terminated, res_preceded]
    exact ParserP.suff_nonEmpty (NomP.suff_terminated hl' (NomP.suff_preceded ho hsf))

theorem lin_selectorPiece : Lin 770 selectorPiece := by
  have h1 : Lin 7 (recognize (preceded (noneOf (c! "$,}@{\"")) (opt (isNot (c! "$,\"{"))))) :=
    Lin.mono (lin_recognize (lin_both (NomP.suff_noneOf _) (const_noneOf _).flat.half.lin (lin_opt (flat_isNot _).half.lin))) (by decide)
  exact Lin.mono (lin_alt h1 (lin_alt lin_string (lin_recognize lin_interpolation))) (by decide)

theorem mid_selector : Mid 3286 selector := by
  have hs := suff_of res_selectorPiece ParserP.suff_selectorPiece
  have hp := prog_of res_selectorPiece ParserP.prog_selectorPiece
  refine mid_trimmed ?_ (mid_nonEmpty (mid_map (mid_recognize (mid_many1 hs hp lin_selectorPiece.mid))))
  rw [res_nonEmpty, res_map, res_recognize, res_many1]
  exact ParserP.suff_nonEmpty (NomP.suff_map (NomP.suff_recognize (NomP.suff_many1 hs)))

theorem total_opt {p : Counted α} : Total (opt p) := by
  intro i k h
  unfold opt at h
  rcases hp : p i with ⟨_ | ⟨r, a⟩, l⟩ <;> rw [hp] at h <;> simp at h

theorem mid_condition : Mid 13364 condition := by
  have e : res (terminated selector (opt (tag (c! ",")))) = Nom.terminated Css.selector (Nom.opt (Nom.tag (c! ","))) := by
    simp only [res_terminated, res_selector, res_opt, res_tag]
  have hs := suff_of e ParserP.suff_conditionPiece
  have hp := prog_of e ParserP.prog_conditionPiece
  have ho : Suff (res (opt (tag (c! ",")))) := by rw [res_opt]; exact NomP.suff_opt (suff_tag _)
  refine mid_trimmed ?_ (mid_nonEmpty (mid_many1 hs hp (mid_right (suff_of res_selector ParserP.suff_selector) ho
    mid_selector (const_opt (const_tag _)).flat.half.lin total_opt)))
  rw [res_nonEmpty, res_many1]
  exact ParserP.suff_nonEmpty (NomP.suff_many1 hs)

theorem lin_atRulePiece : Lin 454 atRulePiece := lin_alt (flat_isNot _).half.lin (lin_recognize lin_interpolation)

theorem mid_atRuleCondition {t : Counted Str} (hs : Suff (res t)) (ht : Const 60 t) : Mid 2088 (atRuleCondition t) := by
  have hps := suff_of res_atRulePiece ParserP.suff_atRulePiece
  have hpp := prog_of res_atRulePiece ParserP.prog_atRulePiece
  have h1 : Suff (res (recognize (terminated t (tag (c! " "))))) := by
    rw [res_recognize, res_terminated]; exact NomP.suff_recognize (NomP.suff_terminated hs (suff_tag _))
  have h2 : Suff (res (map (recognize (many1 atRulePiece)) Str.trim)) := by
    rw [res_map, res_recognize, res_many1]; exact NomP.suff_map (NomP.suff_recognize (NomP.suff_many1 hps))
  refine mid_trimmed ?_ (mid_nonEmpty (mid_map (mid_left h1 h2
    (const_recognize (const_both ht (const_tag _))).flat.half.lin
    (mid_map (mid_recognize (mid_many1 hps hpp lin_atRulePiece.mid))))))
  rw [res_nonEmpty, res_map, res_pair]
  exact ParserP.suff_nonEmpty (NomP.suff_map (NomP.suff_pair h1 h2))

end

end Steps
