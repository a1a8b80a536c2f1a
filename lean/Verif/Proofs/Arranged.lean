import Verif.Spec.Arranged
import Verif.Proofs.Render
import Verif.Proofs.Text
import Verif.Proofs.Written

/-!
# Sheets with the same arrangement
-/

namespace ArrangedP

open Spec Render

/-- Two contexts that print the same from now on if they are open. -/
def Alike (c d : Ctx) : Prop :=
  c.className = d.className ∧ c.isOpen = d.isOpen ∧ (c.isOpen = true → c.conditions = d.conditions)

inductive AlikeAll : List Ctx → List Ctx → Prop
  | nil : AlikeAll [] []
  | cons {c d : Ctx} {ps qs : List Ctx} : Alike c d → AlikeAll ps qs → AlikeAll (c :: ps) (d :: qs)

theorem openParent_alike {ps qs : List Ctx} (h : AlikeAll ps qs) :
    Ctx.openParentConditions ps = Ctx.openParentConditions qs := by
  induction h with
  | nil => rfl
  | @cons c d ps qs h hs ih =>
    cases ho : c.isOpen with
    | true =>
      have ho' : d.isOpen = true := by rw [← h.2.1, ho]
      simpa [Ctx.openParentConditions, Ctx.openParent, ho, ho'] using h.2.2 ho
    | false =>
      have ho' : d.isOpen = false := by rw [← h.2.1, ho]
      simpa [Ctx.openParentConditions, Ctx.openParent, ho, ho'] using ih

theorem common_alike {c d : Ctx} {ps qs : List Ctx} (h : AlikeAll ps qs) (hc : c.conditions = d.conditions) :
    Ctx.commonConditions c ps = Ctx.commonConditions d qs := by
  simp only [Ctx.commonConditions, openParent_alike h, hc]

theorem finishLoop_alike {c d : Ctx} {ps qs : List Ctx} (h : AlikeAll ps qs) (hc : c.conditions = d.conditions) :
    ∀ n, Ctx.finishLoop c ps n = Ctx.finishLoop d qs n
  | 0 => rfl
  | n + 1 => by simp only [Ctx.finishLoop, Ctx.writeMinPadding, common_alike h hc, finishLoop_alike h hc n]

theorem finish_alike {c d : Ctx} {ps qs : List Ctx} (h : AlikeAll ps qs) (hc : Alike c d) :
    Alike (Ctx.finish c ps).1 (Ctx.finish d qs).1 ∧ (Ctx.finish c ps).2 = (Ctx.finish d qs).2 := by
  refine ⟨⟨hc.1, rfl, by simp [Ctx.finish]⟩, ?_⟩
  cases ho : c.isOpen with
  | true =>
    have ho' : d.isOpen = true := by rw [← hc.2.1, ho]
    have he := hc.2.2 ho
    simp only [Ctx.finish, ho, ho', if_true, Ctx.uniqueConditions, common_alike h he, he, finishLoop_alike h he]
  | false =>
    have ho' : d.isOpen = false := by rw [← hc.2.1, ho]
    simp [Ctx.finish, ho, ho']

theorem close_alike {c d : Ctx} (hc : c.conditions = d.conditions) {ps qs : List Ctx} (h : AlikeAll ps qs) :
    AlikeAll (Ctx.closeUntilCommonParent c ps).1 (Ctx.closeUntilCommonParent d qs).1 ∧
      (Ctx.closeUntilCommonParent c ps).2 = (Ctx.closeUntilCommonParent d qs).2 := by
  induction h with
  | nil => exact ⟨.nil, rfl⟩
  | @cons m n ps qs hm hs ih =>
    have hd : Ctx.differConditions c (m :: ps) = Ctx.differConditions d (n :: qs) := by
      simp only [Ctx.differConditions, openParent_alike (.cons hm hs), common_alike (.cons hm hs) hc]
    obtain ⟨f1, f2⟩ := finish_alike hs hm
    cases ho : m.isOpen with
    | true =>
      have ho' : n.isOpen = true := by rw [← hm.2.1, ho]
      simp only [Ctx.closeUntilCommonParent, ho, ho', if_true, hd]
      split
      · exact ⟨.cons hm hs, rfl⟩
      · exact ⟨.cons f1 ih.1, by rw [f2, ih.2]⟩
    | false =>
      have ho' : n.isOpen = false := by rw [← hm.2.1, ho]
      simp only [Ctx.closeUntilCommonParent, ho, ho', Bool.false_eq_true, if_false]
      exact ⟨.cons hm ih.1, ih.2⟩

inductive SameAll : List Ctx → List Ctx → Prop
  | nil : SameAll [] []
  | cons {c d : Ctx} {ps qs : List Ctx} : Same c d → SameAll ps qs → SameAll (c :: ps) (d :: qs)

theorem same_trans {a b c : Ctx} (h : Same a b) (h' : Same b c) : Same a c :=
  ⟨h'.1.trans h.1, h'.2.1.trans h.2.1, h'.2.2.trans h.2.2⟩

theorem SameAll.refl : ∀ ps, SameAll ps ps
  | [] => .nil
  | _ :: ps => .cons ⟨rfl, rfl, rfl⟩ (SameAll.refl ps)

theorem SameAll.trans {a b : List Ctx} (h : SameAll a b) : ∀ {c}, SameAll b c → SameAll a c := by
  induction h with
  | nil => exact id
  | cons h _ ih =>
    intro c hc
    cases hc with
    | cons h' hs' => exact .cons (same_trans h h') (ih hs')

theorem close_same (c : Ctx) : ∀ ps, SameAll ps (Ctx.closeUntilCommonParent c ps).1
  | [] => .nil
  | m :: ps => by
    have ih := close_same c ps
    simp only [Ctx.closeUntilCommonParent]
    split
    · split
      · exact .refl _
      · exact .cons ⟨rfl, rfl, rfl⟩ ih
    · exact .cons ⟨rfl, rfl, rfl⟩ ih

theorem startLoop_alike {c d : Ctx} {ps qs : List Ctx} (h : AlikeAll ps qs) (hc : c.conditions = d.conditions) :
    ∀ (l : List Str) n, Ctx.startLoop c ps n l = Ctx.startLoop d qs n l
  | [], _ => rfl
  | x :: l, n => by simp only [Ctx.startLoop, Ctx.writeMinPadding, common_alike h hc, startLoop_alike h hc l]

theorem start_alike {c d : Ctx} {ps qs : List Ctx} (h : AlikeAll ps qs) (hc : Alike c d) (he : c.conditions = d.conditions) :
    ∃ ps' qs', (Ctx.start (c :: ps)).1 = { c with isOpen := true } :: ps' ∧
      (Ctx.start (d :: qs)).1 = { d with isOpen := true } :: qs' ∧ SameAll ps ps' ∧ SameAll qs qs' ∧ AlikeAll ps' qs' ∧
      (Ctx.start (c :: ps)).2 = (Ctx.start (d :: qs)).2 := by
  obtain ⟨h1, h2⟩ := close_alike he h
  cases ho : c.isOpen with
  | true =>
    have ho' : d.isOpen = true := by rw [← hc.2.1, ho]
    exact ⟨ps, qs, by simp [Ctx.start, ho], by simp [Ctx.start, ho'], .refl _, .refl _, h, by simp [Ctx.start, ho, ho']⟩
  | false =>
    have ho' : d.isOpen = false := by rw [← hc.2.1, ho]
    refine ⟨(Ctx.closeUntilCommonParent c ps).1, (Ctx.closeUntilCommonParent d qs).1, by simp [Ctx.start, ho], by simp [Ctx.start, ho'],
      close_same c ps, close_same d qs, h1, ?_⟩
    simp only [Ctx.start, ho, ho', Bool.false_eq_true, if_false, h2, Ctx.uniqueConditions, common_alike h1 he, he,
      startLoop_alike h1 he]

theorem alike_open {c d : Ctx} (h : Alike c d) (he : c.conditions = d.conditions) :
    Alike { c with isOpen := true } { d with isOpen := true } := ⟨h.1, rfl, fun _ => he⟩

/-! ## The declarations of sheets with the same arrangement have the same number -/

mutual
theorem decls_length (s s' : Str → Str) (u u' : Str) : ∀ (x y : RBC) (r r' : List Str) (o o' : Option Str), shapeOf x = shapeOf y →
    (declsIn s u r o x).length = (declsIn s' u' r' o' y).length
  | .attr _ _, y, _, _, _, _, h => by cases y <;> simp [shapeOf] at h; rfl
  | .rule c b, y, _, _, _, _, h => by
    cases y <;> simp [shapeOf] at h
    exact declsAll_length s s' u u' b _ _ _ _ _ h.2
  | .block c b, y, _, _, _, _, h => by
    cases y <;> simp [shapeOf] at h
    exact declsAll_length s s' u u' b _ _ _ _ _ h
theorem declsAll_length (s s' : Str → Str) (u u' : Str) : ∀ (x y : List RBC) (r r' : List Str) (o o' : Option Str), shapesOf x = shapesOf y →
    (declsInAll s u r o x).length = (declsInAll s' u' r' o' y).length
  | [], y, _, _, _, _, h => by cases y <;> simp [shapesOf] at h; rfl
  | x :: xs, y, r, r', o, o', h => by
    cases y with
    | nil => simp [shapesOf] at h
    | cons y ys =>
      simp only [shapesOf, List.cons.injEq] at h
      simp only [declsInAll, List.length_append, decls_length s s' u u' x y r r' o o' h.1, declsAll_length s s' u u' xs ys r r' o o' h.2]
end

mutual
theorem keyframes_length (s s' : Str → Str) (u u' : Str) : ∀ (x y : RBC) (r r' : List Str) (o o' : Option Str), shapeOf x = shapeOf y →
    (keyframesIn s u r o x).length = (keyframesIn s' u' r' o' y).length
  | .attr _ _, y, _, _, _, _, h => by cases y <;> simp [shapeOf] at h; rfl
  | .rule c b, y, r, r', o, o', h => by
    cases y <;> simp only [shapeOf, Shape.rule.injEq, decide_eq_decide, reduceCtorEq] at h
    simp only [keyframesIn, List.length_append, h.1]
    rw [keyframesAll_length s s' u u' b _ _ _ _ _ h.2]
    split <;> rfl
  | .block c b, y, _, _, _, _, h => by
    cases y <;> simp [shapeOf] at h
    exact keyframesAll_length s s' u u' b _ _ _ _ _ h
theorem keyframesAll_length (s s' : Str → Str) (u u' : Str) : ∀ (x y : List RBC) (r r' : List Str) (o o' : Option Str), shapesOf x = shapesOf y →
    (keyframesInAll s u r o x).length = (keyframesInAll s' u' r' o' y).length
  | [], y, _, _, _, _, h => by cases y <;> simp [shapesOf] at h; rfl
  | x :: xs, y, r, r', o, o', h => by
    cases y with
    | nil => simp [shapesOf] at h
    | cons y ys =>
      simp only [shapesOf, List.cons.injEq] at h
      simp only [keyframesInAll, List.length_append, keyframes_length s s' u u' x y r r' o o' h.1, keyframesAll_length s s' u u' xs ys r r' o o' h.2]
end

mutual
/-- Without animations. -/
def Calm : Shape → Prop
  | .decl => True
  | .rule a l => a = false ∧ CalmAll l
  | .block l => CalmAll l
def CalmAll : List Shape → Prop
  | [] => True
  | x :: xs => Calm x ∧ CalmAll xs
end

/-! ## The same text -/

theorem startsWith_iff (p s : Str) : Str.startsWith p s = decide (p <+: s) := by
  rw [Bool.eq_iff_iff, decide_eq_true_iff]
  exact List.isPrefixOf_iff_prefix

abbrev D (c : Ctx) (x : RBC) := declsIn (sel c.className) (current c.className) c.rules c.selector x
abbrev K (c : Ctx) (x : RBC) := keyframesIn (sel c.className) (current c.className) c.rules c.selector x
abbrev Ds (c : Ctx) (x : List RBC) := declsInAll (sel c.className) (current c.className) c.rules c.selector x
abbrev Ks (c : Ctx) (x : List RBC) := keyframesInAll (sel c.className) (current c.className) c.rules c.selector x

/-- The chains after writing: the same contexts but for their flags. -/
def Goes (c d : Ctx) (ps qs : List Ctx) (r r' : List Ctx × Str) : Prop :=
  ∃ c' d' ps' qs', r.1 = c' :: ps' ∧ r'.1 = d' :: qs' ∧ Same c c' ∧ Same d d' ∧ SameAll ps ps' ∧ SameAll qs qs' ∧
    Alike c' d' ∧ AlikeAll ps' qs' ∧ r.2 = r'.2

/-- The children of a context and its end. -/
theorem goes_end {m n c d : Ctx} {ps qs : List Ctx} {r r' : List Ctx × Str} (h : Goes m n (c :: ps) (d :: qs) r r') :
    Goes c d ps qs ((Ctx.finishChain r.1).1.tail, r.2 ++ (Ctx.finishChain r.1).2)
      ((Ctx.finishChain r'.1).1.tail, r'.2 ++ (Ctx.finishChain r'.1).2) := by
  obtain ⟨m', n', l, l', h1, h2, -, -, h5, h6, h7, h8, h9⟩ := h
  cases h5 with
  | @cons _ c' _ ps' a1 a2 =>
  cases h6 with
  | @cons _ d' _ qs' b1 b2 =>
  obtain ⟨f1, f2⟩ := finish_alike h8 h7
  cases h8 with
  | cons g1 g2 =>
  refine ⟨c', d', ps', qs', by rw [h1]; rfl, by rw [h2]; rfl, a1, b1, a2, b2, g1, g2, ?_⟩
  simp only [h1, h2, h9, Ctx.finishChain, f2]

theorem goes_mono {c d c1 d1 : Ctx} {ps qs ps1 qs1 : List Ctx} {r r' : List Ctx × Str} (h : Goes c1 d1 ps1 qs1 r r')
    (hc : Same c c1) (hd : Same d d1) (hp : SameAll ps ps1) (hq : SameAll qs qs1) : Goes c d ps qs r r' := by
  obtain ⟨m', n', l, l', h1, h2, h3, h4, h5, h6, h7⟩ := h
  exact ⟨m', n', l, l', h1, h2, same_trans hc h3, same_trans hd h4, hp.trans h5, hq.trans h6, h7⟩

theorem goes_pre {c d : Ctx} {ps qs : List Ctx} {r r' : List Ctx × Str} (h : Goes c d ps qs r r') (o : Str) :
    Goes c d ps qs (r.1, o ++ r.2) (r'.1, o ++ r'.2) := by
  obtain ⟨m', n', l, l', h1, h2, h3, h4, h5, h6, h7, h8, h9⟩ := h
  exact ⟨m', n', l, l', h1, h2, h3, h4, h5, h6, h7, h8, by simp only [h9]⟩

mutual
theorem write_alike : ∀ (x y : RBC) (c d : Ctx) (ps qs : List Ctx), shapeOf x = shapeOf y → Alike c d → AlikeAll ps qs →
    D c x = D d y → K c x = K d y → Goes c d ps qs (x.write (c :: ps)) (y.write (d :: qs))
  | .attr k v, y, c, d, ps, qs, hs, ha, hp, hd, hk => by
    cases y <;> simp only [shapeOf, reduceCtorEq] at hs
    rename_i k' v'
    simp only [declsIn, List.cons.injEq, Decl.mk.injEq, and_true] at hd
    obtain ⟨h1, h2, h3⟩ := hd
    have he : c.conditions = d.conditions := h1
    obtain ⟨ps', qs', e1, e2, e5, e6, e3, e4⟩ := start_alike hp ha he
    refine ⟨{ c with isOpen := true }, { d with isOpen := true }, ps', qs', ?_, ?_, ⟨rfl, rfl, rfl⟩, ⟨rfl, rfl, rfl⟩, e5, e6, alike_open ha he, e3, ?_⟩
    · simp only [RBC.write]; rw [e1]
    · simp only [RBC.write]; rw [e2]
    · simp only [RBC.write]; rw [e1, e2]
      simp only [e4, Ctx.writePadding, Ctx.conditions, h1, h2, h3]
  | .rule cc b, y, c, d, ps, qs, hs, ha, hp, hd, hk => by
    cases y <;> simp only [shapeOf, reduceCtorEq, Shape.rule.injEq, decide_eq_decide] at hs
    rename_i cc' b'
    have hcl : Alike (c.withRuleCondition cc.flatten) (d.withRuleCondition cc'.flatten) :=
      ⟨ha.1, rfl, by simp [Ctx.withRuleCondition]⟩
    simp only [declsIn, keyframesIn] at hd hk
    have hsw : Str.startsWith (c! "@keyframes") cc'.flatten = Str.startsWith (c! "@keyframes") cc.flatten := by
      rw [startsWith_iff, startsWith_iff, decide_eq_decide, hs.1]
    simp only [RBC.write, hsw]
    by_cases hs2 : c! "@keyframes" <+: cc.flatten
    · have hs3 := hs.1.1 hs2
      rw [if_pos hs2, if_pos hs3, List.singleton_append, List.singleton_append, List.cons.injEq] at hk
      have he : (c.withRuleCondition cc.flatten).conditions = (d.withRuleCondition cc'.flatten).conditions := hk.1
      have hst : Str.startsWith (c! "@keyframes") cc.flatten = true := by rw [startsWith_iff]; simpa using hs2
      obtain ⟨ps', qs', e1, e2, e5, e6, e3, e4⟩ := start_alike (.cons ha hp) hcl he
      simp only [if_pos hst, e1, e2, e4]
      have := writes_alike b b' { c.withRuleCondition cc.flatten with isOpen := true } { d.withRuleCondition cc'.flatten with isOpen := true }
        ps' qs' hs.2 (alike_open hcl he) e3 hd hk.2
      have := goes_pre (goes_end (goes_mono this ⟨rfl, rfl, rfl⟩ ⟨rfl, rfl, rfl⟩ e5 e6)) (Ctx.start (d.withRuleCondition cc'.flatten :: d :: qs)).2
      simpa only [List.append_assoc] using this
    · have hs3 : ¬ c! "@keyframes" <+: cc'.flatten := fun h => hs2 (hs.1.2 h)
      rw [if_neg hs2, if_neg hs3] at hk
      have hst : ¬ Str.startsWith (c! "@keyframes") cc.flatten = true := by rw [startsWith_iff]; simpa using hs2
      simp only [if_neg hst, List.nil_append]
      exact goes_end (writes_alike b b' _ _ _ _ hs.2 hcl (.cons ha hp) hd hk)
  | .block cc b, y, c, d, ps, qs, hs, ha, hp, hd, hk => by
    cases y <;> simp only [shapeOf, reduceCtorEq, Shape.block.injEq] at hs
    rename_i cc' b'
    simp only [declsIn, keyframesIn] at hd hk
    have hcl : Alike (c.withBlockCondition (condStr c.className cc)) (d.withBlockCondition (condStr d.className cc')) :=
      ⟨ha.1, rfl, by simp [Ctx.withBlockCondition]⟩
    simp only [RBC.write]
    refine goes_end (writes_alike b b' _ _ _ _ hs hcl (.cons ha hp) ?_ ?_)
    · simp only [Ds, blockSelector_eq]; exact hd
    · simp only [Ks, blockSelector_eq]; exact hk
theorem writes_alike : ∀ (x y : List RBC) (c d : Ctx) (ps qs : List Ctx), shapesOf x = shapesOf y → Alike c d → AlikeAll ps qs →
    Ds c x = Ds d y → Ks c x = Ks d y → Goes c d ps qs (RBC.writes x (c :: ps)) (RBC.writes y (d :: qs))
  | [], y, c, d, ps, qs, hs, ha, hp, hd, hk => by
    cases y <;> simp [shapesOf] at hs
    exact ⟨c, d, ps, qs, rfl, rfl, ⟨rfl, rfl, rfl⟩, ⟨rfl, rfl, rfl⟩, .refl _, .refl _, ha, hp, rfl⟩
  | x :: xs, y, c, d, ps, qs, hs, ha, hp, hd, hk => by
    cases y with
    | nil => simp [shapesOf] at hs
    | cons y ys =>
      simp only [shapesOf, List.cons.injEq] at hs
      simp only [declsInAll, keyframesInAll] at hd hk
      obtain ⟨d1, d2⟩ := List.append_inj hd (decls_length _ _ _ _ _ _ _ _ _ _ hs.1)
      obtain ⟨k1, k2⟩ := List.append_inj hk (keyframes_length _ _ _ _ _ _ _ _ _ _ hs.1)
      obtain ⟨c1, e1, ps1, qs1, a1, a2, a3, a4, g1, g2, a5, a6, a7⟩ := write_alike x y c d ps qs hs.1 ha hp d1 k1
      have d2' : Ds c1 xs = Ds e1 ys := by
        simp only [Ds, a3.1, a3.2.1, a3.2.2, a4.1, a4.2.1, a4.2.2]; exact d2
      have k2' : Ks c1 xs = Ks e1 ys := by
        simp only [Ks, a3.1, a3.2.1, a3.2.2, a4.1, a4.2.1, a4.2.2]; exact k2
      obtain ⟨c2, e2, ps2, qs2, b1, b2, b3, b4, g3, g4, b5, b6, b7⟩ := writes_alike xs ys c1 e1 ps1 qs1 hs.2 a5 a6 d2' k2'
      refine ⟨c2, e2, ps2, qs2, ?_, ?_, same_trans a3 b3, same_trans a4 b4, g1.trans g3, g2.trans g4, b5, b6, ?_⟩
      · simp only [RBC.writes, a1, b1]
      · simp only [RBC.writes, a2, b2]
      · simp only [RBC.writes, a1, a2, a7, b7]
end

/-- Sheets with the same arrangement, the same declarations and the same animations. -/
theorem text_of_arrangement (s t : Sheet) (cls : Option Str) (hc : ∀ c ∈ cls, ':' ∉ c) (ha : arrangement s = arrangement t)
    (hd : decls cls s = decls cls t) (hk : keyframes cls s = keyframes cls t) : s.toStyleStr cls = t.toStyleStr cls := by
  have hsel := Text.sel_eq cls hc
  obtain ⟨-, -, -, -, -, -, -, -, -, -, -, -, h⟩ := writes_alike (s.map ScopeContent.toRBC) (t.map ScopeContent.toRBC) (Ctx.new cls) (Ctx.new cls) [] []
    ha ⟨rfl, rfl, fun _ => rfl⟩ .nil (by simp only [Ds, Ctx.new, hsel]; exact hd) (by simp only [Ks, Ctx.new, hsel]; exact hk)
  simp only [Sheet.toStyleStr, sheet_write_eq, h]

/-! ## Inline css -/

open Output

mutual
theorem no_keyframes (s : Str → Str) (u : Str) : ∀ (x : RBC) (r : List Str) (o : Option Str), Calm (shapeOf x) → keyframesIn s u r o x = []
  | .attr _ _, _, _, _ => rfl
  | .rule c b, r, o, h => by
    simp only [shapeOf, Calm, decide_eq_false_iff_not] at h
    simp only [keyframesIn, if_neg h.1, List.nil_append]
    exact no_keyframesAll s u b _ _ h.2
  | .block c b, r, o, h => no_keyframesAll s u b _ _ h
theorem no_keyframesAll (s : Str → Str) (u : Str) : ∀ (x : List RBC) (r : List Str) (o : Option Str), CalmAll (shapesOf x) →
    keyframesInAll s u r o x = []
  | [], _, _, _ => rfl
  | x :: xs, r, o, h => by
    simp only [keyframesInAll, no_keyframes s u x r o h.1, no_keyframesAll s u xs r o h.2, List.append_nil]
end

theorem cond_calm {name : CssIdent} {t : Str} (h : cssName name ∈ [c! "media", c! "supports"]) :
    decide (c! "@keyframes" <+: [c! "@" ++ cssName name ++ c! " " ++ t].flatten) = false := by
  simp only [List.mem_cons, List.not_mem_nil, or_false] at h
  rw [decide_eq_false_iff_not]
  rcases h with h | h <;> rw [h] <;> intro hp <;>
    simp [List.prefix_cons_iff] at hp

theorem shapes_in {ρ : Env} {is : List SItem} {out : List ORBC} (h : EmitsIn is out) (hl : WrittenP.LawfulL is) :
    shapesOf (meaningRBCs ρ out) = bodyShapes is := by
  induction h with
  | nil => rfl
  | decl name vs is out h ih => simp only [meaningRBCs, declOut, meaningRBC, shapesOf, shapeOf, bodyShapes, bodyShape, ih hl.2]
  | rule name ps body a is out h1 h2 ih1 ih2 =>
    simp only [meaningRBCs, meaningRBC, shapesOf, shapeOf, bodyShapes, bodyShape, ih2 hl.2, ih1 hl.1.2.2, WrittenP.cond_text,
      cond_calm hl.1.1]

theorem shapes_decls {is : List SItem} (hi : ∀ i ∈ is.head?, ¬ IsDecl i) : ∀ ds : List SItem, ds ≠ [] → (∀ d ∈ ds, IsDecl d) →
    itemShapes (ds ++ is) = .block (bodyShapes ds) :: itemShapes is
  | [], h, _ => absurd rfl h
  | [d], _, h => by
    have hd := h d List.mem_cons_self
    cases d <;> simp only [IsDecl] at hd
    have : startsWithDecl is = false := by
      cases is with
      | nil => rfl
      | cons i is =>
        have := hi i (by simp)
        cases i <;> simp_all [IsDecl, startsWithDecl]
    simp [itemShapes, this, itemShape, bodyShapes, bodyShape]
  | d :: e :: ds, _, h => by
    have hd := h d List.mem_cons_self
    have he := h e (by simp)
    have ih := shapes_decls hi (e :: ds) (by simp) (fun x hx => h x (List.mem_cons_of_mem _ hx))
    cases d <;> simp only [IsDecl] at hd
    cases e <;> simp only [IsDecl] at he
    rw [List.cons_append, itemShapes, ih]
    simp [startsWithDecl, intoFirst, bodyShapes, bodyShape]

theorem shapes_out {ρ : Env} {is : List SItem} {out : List ORBC} (h : Emits is out) (hl : WrittenP.LawfulL is) :
    shapesOf (meaningRBCs ρ out) = itemShapes is := by
  induction h with
  | nil => rfl
  | decls ds is out hne hds hhd h ih =>
    obtain ⟨l1, l2⟩ := (WrittenP.lawfulL_append ds is).1 hl
    rw [shapes_decls hhd ds hne hds, ← ih l2, ← shapes_in (ρ := ρ) (WrittenP.emitsIn_decls ds hds) l1]
    rfl
  | rule name ps body a is out h1 h2 ih1 ih2 =>
    simp only [meaningRBCs, meaningRBC, shapesOf, shapeOf, itemShapes, startsWithDecl, Bool.false_and, Bool.false_eq_true, if_false,
      itemShape, ih2 hl.2, ih1 hl.1.2.2, WrittenP.cond_text, cond_calm hl.1.1]
  | block qs body a is out h1 h2 ih =>
    simp only [meaningRBCs, meaningRBC, shapesOf, shapeOf, itemShapes, startsWithDecl, Bool.false_and, Bool.false_eq_true, if_false,
      itemShape, ih hl.2, shapes_in (ρ := ρ) h1 hl.1.2]

mutual
theorem calm_body : ∀ x : SItem, Calm (bodyShape x)
  | .decl _ _ => trivial
  | .rule _ _ b => ⟨rfl, calm_bodies b⟩
  | .block _ b => calm_bodies b
theorem calm_bodies : ∀ x : List SItem, CalmAll (bodyShapes x)
  | [] => trivial
  | x :: xs => ⟨calm_body x, calm_bodies xs⟩
end

mutual
theorem calm_item : ∀ x : SItem, Calm (itemShape x)
  | .decl _ _ => ⟨trivial, trivial⟩
  | .rule _ _ b => ⟨rfl, calm_items b⟩
  | .block _ b => calm_bodies b
theorem calm_items : ∀ x : List SItem, CalmAll (itemShapes x)
  | [] => trivial
  | x :: xs => by
    have h1 := calm_item x
    have h2 := calm_items xs
    simp only [itemShapes]
    split
    · revert h2
      generalize itemShapes xs = l
      intro h2
      unfold intoFirst
      split
      · exact ⟨⟨trivial, h2.1⟩, h2.2⟩
      · exact h2
    · exact ⟨h1, h2⟩
end

mutual
theorem shape_joined : ∀ x : RBC, shapeOf (joinedRBC x) = shapeOf x
  | .attr _ _ => rfl
  | .rule c b => by simp [joinedRBC, shapeOf, shapes_joined b]
  | .block c b => by simp [joinedRBC, shapeOf, shapes_joined b]
theorem shapes_joined : ∀ x : List RBC, shapesOf (joinedRBCs x) = shapesOf x
  | [] => rfl
  | x :: xs => by simp [joinedRBCs, shapesOf, shape_joined x, shapes_joined xs]
end

theorem arrangement_sheet {ρ : Env} {is : List SItem} {out : OSheet} (h : Emits is (out.map scopeRBC)) (hl : WrittenP.LawfulL is)
    {s : Sheet} (hs : joined s = meaning ρ out) : arrangement s = itemShapes is := by
  have e := congrArg (List.map ScopeContent.toRBC) hs
  rw [WrittenP.joined_toRBC, WrittenP.meaning_toRBC] at e
  rw [arrangement, ← shapes_joined, e, shapes_out h hl]

end ArrangedP
