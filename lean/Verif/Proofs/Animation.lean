import Verif.Spec.Animation
import Verif.Proofs.Browser

/-! # Animations in generated text -/

namespace AnimP
open Spec Render

/-! ## Streams -/

theorem anims_append (e2 : List Ev) : ∀ (e1 : List Ev) (st st1 : List Str) (a a1 : Option (Nat × List Decl))
    (r1 : List Animation), readAnims st a e1 = some (r1, st1, a1) →
    readAnims st a (e1 ++ e2) = (readAnims st1 a1 e2).map (fun (r, x) => (r1 ++ r, x)) ∧
    layout st.length (e1 ++ e2) = layout st.length e1 ++ layout st1.length e2
  | [], st, st1, a, a1, r1, h => by
    simp only [readAnims, Option.some.injEq, Prod.mk.injEq] at h
    obtain ⟨rfl, rfl, rfl⟩ := h
    constructor
    · cases h : readAnims st a e2 <;> simp [h]
    · simp [layout]
  | .opn x :: e1, st, st1, a, a1, r1, h => by
    simp only [readAnims] at h
    obtain ⟨h1, h2⟩ := anims_append e2 e1 _ _ _ _ _ h
    refine ⟨by simpa only [List.cons_append, readAnims] using h1, ?_⟩
    simp only [List.length_append, List.length_cons, List.length_nil, Nat.zero_add] at h2
    simp [layout, h2]
  | .decl k v :: e1, st, st1, a, a1, r1, h => by
    simp only [readAnims] at h
    obtain ⟨h1, h2⟩ := anims_append e2 e1 _ _ _ _ _ h
    refine ⟨by simpa only [List.cons_append, readAnims] using h1, ?_⟩
    simp [layout, h2]
  | .cls :: e1, st, st1, a, a1, r1, h => by
    simp only [readAnims] at h
    split at h
    · cases h
    rename_i hne
    have fin : ∀ b r, readAnims st.dropLast b e1 = some (r, st1, a1) →
        layout st.length (Ev.cls :: e1 ++ e2) = layout st.length (Ev.cls :: e1) ++ layout st1.length e2 := by
      intro b r hb
      have h2 := (anims_append e2 e1 _ _ _ _ _ hb).2
      rw [List.length_dropLast] at h2
      simp [layout, h2]
    cases a with
    | none =>
      refine ⟨?_, fin _ _ h⟩
      simp only [List.cons_append, readAnims, hne, if_false]
      exact (anims_append e2 e1 _ _ _ _ _ h).1
    | some p =>
      obtain ⟨n, ds⟩ := p
      dsimp only at h
      split at h
      · rename_i hn
        split at h
        · cases h
        · rename_i as r hr
          simp only [Option.some.injEq, Prod.mk.injEq] at h
          obtain ⟨rfl, rfl⟩ := h
          refine ⟨?_, fin _ _ hr⟩
          simp only [List.cons_append, readAnims, hne, if_false, hn, if_true]
          rw [(anims_append e2 e1 _ _ _ _ _ hr).1]
          cases readAnims st1 a1 e2 <;> simp
      · rename_i hn
        refine ⟨?_, fin _ _ h⟩
        simp only [List.cons_append, readAnims, hne, if_false, hn]
        exact (anims_append e2 e1 _ _ _ _ _ h).1

/-- `out` is the text of a stream of events with property `G` that leads from the open headers
`p` and animation `a` to `q` and `b`, and during which the animations `res` end. -/
def EmitsA (G : Ev → Prop) (p : List Str) (a : Option (Nat × List Decl)) (q : List Str)
    (b : Option (Nat × List Decl)) (out : Str) (res : List Animation) : Prop :=
  ∃ evs, out = layout p.length evs ∧ readAnims p a evs = some (res, q, b) ∧ ∀ e ∈ evs, G e

variable {G : Ev → Prop}

theorem EmitsA.nil (p : List Str) (a : Option (Nat × List Decl)) : EmitsA G p a p a [] [] :=
  ⟨[], by simp [layout], by simp [readAnims], by simp⟩

theorem EmitsA.append {p q r : List Str} {a b c : Option (Nat × List Decl)} {o1 o2 : Str} {r1 r2 : List Animation}
    (h1 : EmitsA G p a q b o1 r1) (h2 : EmitsA G q b r c o2 r2) : EmitsA G p a r c (o1 ++ o2) (r1 ++ r2) := by
  obtain ⟨e1, rfl, s1, g1⟩ := h1
  obtain ⟨e2, rfl, s2, g2⟩ := h2
  obtain ⟨h3, h4⟩ := anims_append e2 e1 _ _ _ _ _ s1
  refine ⟨e1 ++ e2, h4.symm, by rw [h3, s2]; rfl, ?_⟩
  intro e he
  exact (List.mem_append.1 he).elim (g1 e) (g2 e)

/-- The animation that is being read began outside of the first `k` headers or is none. -/
def Keep (a : Option (Nat × List Decl)) (k : Nat) : Prop := ∀ n ds, a = some (n, ds) → n ≤ k

theorem finishLoop_keep (hG : G .cls) {c : Ctx} {ps : List Ctx} (h : cur ps <+: c.conditions)
    {a : Option (Nat × List Decl)} (ha : Keep a (cur ps).length) :
    ∀ (n : Nat) (p : List Str), cur ps <+: p → p.length = (cur ps).length + n →
      EmitsA G p a (cur ps) a (Ctx.finishLoop c ps n) []
  | 0, p, hp, hn => by
    have : cur ps = p := List.IsPrefix.eq_of_length hp (by omega)
    rw [← this]
    exact EmitsA.nil _ _
  | n + 1, p, hp, hn => by
    have hne : p ≠ [] := by intro h0; simp [h0] at hn
    have hpre : cur ps <+: p.dropLast := by
      obtain ⟨t, rfl⟩ := hp
      have : t ≠ [] := by
        intro h0; subst h0; simp at hn
      rw [List.dropLast_append_of_ne_nil this]
      exact List.prefix_append _ _
    obtain ⟨evs, he, hr, hg⟩ := finishLoop_keep hG h ha n p.dropLast hpre (by simp; omega)
    refine ⟨.cls :: evs, ?_, ?_, by simpa using ⟨hG, hg⟩⟩
    · simp only [Ctx.finishLoop, layout, Ctx.writeMinPadding, pad_eq, common_length h]
      rw [← indent_add, he, List.length_dropLast]
      rw [show (cur ps).length + n = p.length - 1 by omega]
    · cases a with
      | none => simp [readAnims, hne, hr]
      | some x =>
        obtain ⟨m, ds⟩ := x
        have := ha m ds rfl
        have hm : p.length ≠ m := by omega
        simp [readAnims, hne, hr, hm]

theorem finish_keep (hG : G .cls) {c : Ctx} {ps : List Ctx} (hinv : Inv (c :: ps))
    {a : Option (Nat × List Decl)} (ha : Keep a (cur ps).length) :
    EmitsA G (cur (c :: ps)) a (cur ps) a (Ctx.finish c ps).2 [] := by
  unfold Ctx.finish
  cases hopen : c.isOpen with
  | false => rw [cur_closed hopen]; exact EmitsA.nil _ _
  | true =>
    have hpre := hinv.1 hopen
    rw [cur_open hopen]
    simp only [if_true]
    apply finishLoop_keep hG hpre ha _ _ hpre
    rw [unique_eq hpre, List.length_drop]
    have := hpre.length_le
    omega

/-- Closing the at-rule of an animation. -/
theorem finish_end (hG : G .cls) {c : Ctx} {ps : List Ctx} (hinv : Inv (c :: ps)) (hopen : c.isOpen = true)
    (hlt : (cur ps).length < c.conditions.length) (ds : List Decl) :
    EmitsA G (cur (c :: ps)) (some (c.conditions.length, ds)) (cur ps) none (Ctx.finish c ps).2
      [⟨c.conditions.dropLast, c.conditions.getLast?.getD [], ds⟩] := by
  unfold Ctx.finish
  have hpre := hinv.1 hopen
  rw [cur_open hopen, hopen]
  simp only [if_true]
  rw [unique_eq hpre, List.length_drop]
  obtain ⟨n, hn⟩ : ∃ n, c.conditions.length - (cur ps).length = n + 1 := ⟨c.conditions.length - (cur ps).length - 1, by omega⟩
  rw [hn]
  have hne : c.conditions ≠ [] := by intro h0; simp [h0] at hlt
  have hpre' : cur ps <+: c.conditions.dropLast := by
    obtain ⟨t, ht⟩ := hpre
    have : t ≠ [] := by
      intro h0; subst h0; rw [← ht] at hlt; simp at hlt
    rw [← ht, List.dropLast_append_of_ne_nil this]
    exact List.prefix_append _ _
  obtain ⟨evs, he, hr, hg⟩ := finishLoop_keep (G := G) (a := none) hG hpre (by intro _ _ h; cases h) n
    c.conditions.dropLast hpre' (by simp; omega)
  refine ⟨.cls :: evs, ?_, ?_, by simpa using ⟨hG, hg⟩⟩
  · simp only [Ctx.finishLoop, layout, Ctx.writeMinPadding, pad_eq, common_length hpre]
    rw [← indent_add, he, List.length_dropLast]
    rw [show (cur ps).length + n = c.conditions.length - 1 by omega]
  · simp only [readAnims, hne, if_false, if_true, hr]
    rw [List.dropLast_eq_take]

/-! ## Contexts that stay open -/

/-- Every open context without a selector whose rules are a prefix of `r` stays open. -/
def Kept (r : List Str) : List Ctx → List Ctx → Prop
  | [], [] => True
  | m :: ps, m' :: ps' =>
    (m.isOpen = true → m.selector = none → m.rules <+: r → m'.isOpen = true) ∧ Kept r ps ps'
  | _, _ => False

theorem Kept.refl (r : List Str) : ∀ ps, Kept r ps ps
  | [] => trivial
  | _ :: ps => ⟨fun h _ _ => h, Kept.refl r ps⟩

theorem Kept.mono {r r' : List Str} (h : r <+: r') : ∀ {ps ps'}, Kept r' ps ps' → Kept r ps ps'
  | [], [], _ => trivial
  | _ :: _, _ :: _, hk => ⟨fun a b c => hk.1 a b (c.trans h), Kept.mono h hk.2⟩
  | [], _ :: _, hk => hk.elim
  | _ :: _, [], hk => hk.elim

theorem Kept.trans {r : List Str} : ∀ {a b c : List Ctx}, ClosedAll a b → Kept r a b → Kept r b c → Kept r a c
  | _, _, [], .nil, _, h => h
  | _, _, _ :: _, .nil, _, h => h.elim
  | _, _, _ :: _, .cons hc hcs, h1, h2 =>
    ⟨fun x y z => h2.1 (h1.1 x y z) (by rw [hc.2.2.1]; exact y) (by rw [hc.2.1]; exact z), Kept.trans hcs h1.2 h2.2⟩
  | _, _, [], .cons _ _, _, h => h.elim

/-- The animation that is being read began in an open context that is not left under the
rules `r`. -/
def Anchor (a : Option (Nat × List Decl)) (r : List Str) (L : List Ctx) : Prop :=
  ∀ n ds, a = some (n, ds) → ∃ K ∈ L, K.isOpen = true ∧ K.selector = none ∧ n ≤ K.rules.length ∧ K.rules <+: r

theorem Kept.anchor {a : Option (Nat × List Decl)} {r : List Str} : ∀ {ps ps' : List Ctx}, ClosedAll ps ps' →
    Kept r ps ps' → ∀ K ∈ ps, K.isOpen = true → K.selector = none → K.rules <+: r →
    ∃ K' ∈ ps', K'.isOpen = true ∧ K'.selector = none ∧ K'.rules = K.rules
  | _, _, .nil, _, K, hK, _, _, _ => by cases hK
  | _, _, .cons hc hcs, hk, K, hK, h1, h2, h3 => by
    rcases List.mem_cons.1 hK with rfl | hK
    · exact ⟨_, by simp, hk.1 h1 h2 h3, by rw [hc.2.2.1]; exact h2, hc.2.1⟩
    · obtain ⟨K', h4, h5⟩ := Kept.anchor (a := a) hcs hk.2 K hK h1 h2 h3
      exact ⟨K', by simp [h4], h5⟩

theorem Anchor.kept {a : Option (Nat × List Decl)} {r : List Str} {ps ps' : List Ctx} (hc : ClosedAll ps ps')
    (hk : Kept r ps ps') (h : Anchor a r ps) : Anchor a r ps' := by
  intro n ds e
  obtain ⟨K, h1, h2, h3, h4, h5⟩ := h n ds e
  obtain ⟨K', g1, g2, g3, g4⟩ := hk.anchor (a := a) hc K h1 h2 h3 h5
  exact ⟨K', g1, g2, g3, by rw [g4]; exact h4, by rw [g4]; exact h5⟩

/-- Open contexts are no longer than the innermost one. -/
theorem cur_ge : ∀ {ps : List Ctx}, Grow ps → ∀ K ∈ ps, K.isOpen = true → K.conditions.length ≤ (cur ps).length
  | m :: ps, hg, K, hK, ho => by
    cases hm : m.isOpen with
    | true =>
      rw [cur_open hm]
      rcases List.mem_cons.1 hK with rfl | hK
      · exact Nat.le_refl _
      · exact hg.1 K hK
    | false =>
      rw [cur_closed hm]
      rcases List.mem_cons.1 hK with rfl | hK
      · rw [hm] at ho; cases ho
      · exact cur_ge hg.2.2 K hK ho

theorem Anchor.keep {a : Option (Nat × List Decl)} {r : List Str} {ps : List Ctx} (hg : Grow ps) (h : Anchor a r ps) :
    Keep a (cur ps).length := by
  intro n ds e
  obtain ⟨K, h1, h2, h3, h4, -⟩ := h n ds e
  have := cur_ge hg K h1 h2
  simp only [Ctx.conditions, h3, Option.toList_none, List.append_nil] at this
  omega

theorem conditions_of_none {m : Ctx} (h : m.selector = none) : m.conditions = m.rules := by
  simp [Ctx.conditions, h]

theorem differ_nil {c m : Ctx} {ps : List Ctx} (ho : m.isOpen = true) (hs : m.selector = none) (hr : m.rules <+: c.rules) :
    (Ctx.differConditions c (m :: ps)).isEmpty = true := by
  have hp : cur (m :: ps) <+: c.conditions := by
    rw [cur_open ho, conditions_of_none hs]
    exact hr.trans (List.prefix_append _ _)
  have := common_length hp
  simp [Ctx.differConditions, this]

theorem close_anims (hG : G .cls) (c : Ctx) (a : Option (Nat × List Decl)) : ∀ ps : List Ctx, Inv ps → Grow ps →
    Anchor a c.rules ps →
    Kept c.rules ps (Ctx.closeUntilCommonParent c ps).1 ∧
    EmitsA G (cur ps) a (cur (Ctx.closeUntilCommonParent c ps).1) a (Ctx.closeUntilCommonParent c ps).2 []
  | [], _, _, _ => ⟨trivial, EmitsA.nil _ _⟩
  | m :: ps, hinv, hg, ha => by
    simp only [Ctx.closeUntilCommonParent]
    cases hopen : m.isOpen with
    | false =>
      simp only [Bool.false_eq_true, if_false]
      have ha' : Anchor a c.rules ps := by
        intro n ds e
        obtain ⟨K, h1, h2, h3⟩ := ha n ds e
        rcases List.mem_cons.1 h1 with rfl | h1
        · rw [hopen] at h2; cases h2
        · exact ⟨K, h1, h2, h3⟩
      obtain ⟨h1, h2⟩ := close_anims hG c a ps hinv.2 hg.2.2 ha'
      refine ⟨⟨fun h _ _ => h, h1⟩, ?_⟩
      rw [cur_closed hopen, cur_closed hopen]; exact h2
    | true =>
      simp only [if_true]
      split
      · exact ⟨Kept.refl _ _, EmitsA.nil _ _⟩
      · rename_i hd
        have ha' : Anchor a c.rules ps := by
          intro n ds e
          obtain ⟨K, h1, h2, h3, h4, h5⟩ := ha n ds e
          rcases List.mem_cons.1 h1 with rfl | h1
          · exact absurd (differ_nil h2 h3 h5) hd
          · exact ⟨K, h1, h2, h3, h4, h5⟩
        obtain ⟨h1, h2⟩ := close_anims hG c a ps hinv.2 hg.2.2 ha'
        refine ⟨⟨fun x y z => absurd (differ_nil x y z) hd, h1⟩, ?_⟩
        rw [cur_closed (c := (Ctx.finish m ps).1) (by simp [Ctx.finish])]
        exact (finish_keep hG hinv (ha'.keep hg.2.2)).append h2

theorem startLoop_keep {c : Ctx} {ps : List Ctx} (h : cur ps <+: c.conditions) {a : Option (Nat × List Decl)} :
    ∀ (hs : List Str) (p : List Str) (i : Nat), p.length = (cur ps).length + i →
      (∀ x ∈ hs, G (.opn x)) → (a = none → ∀ x ∈ hs, ¬ isKeyframes x) →
      EmitsA G p a (p ++ hs) a (Ctx.startLoop c ps i hs) []
  | [], p, i, _, _, _ => by simpa [Ctx.startLoop] using EmitsA.nil p a
  | x :: hs, p, i, hp, hg, hk => by
    obtain ⟨evs, he, hr, hg'⟩ := startLoop_keep h hs (p ++ [x]) (i + 1) (by simp; omega)
      (fun y hy => hg y (by simp [hy])) (fun e y hy => hk e y (by simp [hy]))
    refine ⟨.opn x :: evs, ?_, ?_, by simpa using ⟨hg x (by simp), hg'⟩⟩
    · simp only [Ctx.startLoop, layout, Ctx.writeMinPadding, pad_eq, common_length h]
      rw [← indent_add, he, ← hp]
      simp
    · have : ¬ (a = none ∧ isKeyframes x) := fun e => hk e.1 x (by simp) e.2
      simp [readAnims, this, hr]

theorem startLoop_begin {c : Ctx} {ps : List Ctx} (h : cur ps <+: c.conditions) (k : Str) (hk : isKeyframes k) :
    ∀ (hs : List Str) (p : List Str) (i : Nat), p.length = (cur ps).length + i →
      (∀ x ∈ hs, G (.opn x)) → G (.opn k) → (∀ x ∈ hs, ¬ isKeyframes x) →
      EmitsA G p none (p ++ hs ++ [k]) (some ((p ++ hs ++ [k]).length, [])) (Ctx.startLoop c ps i (hs ++ [k])) []
  | [], p, i, hp, _, hgk, _ => by
    refine ⟨[.opn k], ?_, ?_, by simpa using hgk⟩
    · simp only [List.nil_append, Ctx.startLoop, layout, Ctx.writeMinPadding, pad_eq, common_length h]
      rw [← indent_add, ← hp]
    · simp [readAnims, hk]
  | x :: hs, p, i, hp, hg, hgk, hn => by
    obtain ⟨evs, he, hr, hg'⟩ := startLoop_begin h k hk hs (p ++ [x]) (i + 1) (by simp; omega)
      (fun y hy => hg y (by simp [hy])) hgk (fun y hy => hn y (by simp [hy]))
    refine ⟨.opn x :: evs, ?_, ?_, by simpa using ⟨hg x (by simp), hg'⟩⟩
    · simp only [List.cons_append, Ctx.startLoop, layout, Ctx.writeMinPadding, pad_eq, common_length h]
      rw [← indent_add, he, ← hp]
      simp
    · have := hn x (by simp)
      simp [readAnims, this]
      simpa using hr

theorem start_anims (hG : G .cls) (c : Ctx) (ps : List Ctx) (a : Option (Nat × List Decl)) (hinv : Inv (c :: ps))
    (hg : Grow (c :: ps)) (ha : Anchor a c.rules (c :: ps)) (hc : ∀ x ∈ c.conditions, G (.opn x))
    (hk : a = none → ∀ x ∈ c.conditions, ¬ isKeyframes x) :
    ∃ ps', (Ctx.start (c :: ps)).1 = { c with isOpen := true } :: ps' ∧
      ClosedAll ps ps' ∧ Inv ({ c with isOpen := true } :: ps') ∧ Kept c.rules ps ps' ∧
      EmitsA G (cur (c :: ps)) a c.conditions a (Ctx.start (c :: ps)).2 [] := by
  cases hopen : c.isOpen with
  | true =>
    have he : Ctx.start (c :: ps) = ({ c with isOpen := true } :: ps, []) := by
      simp [Ctx.start, hopen]
    rw [he]
    refine ⟨ps, rfl, .refl _, ⟨fun _ => hinv.1 hopen, hinv.2⟩, Kept.refl _ _, ?_⟩
    rw [cur_open hopen]; exact EmitsA.nil _ _
  | false =>
    obtain ⟨h1, h2, h3, -⟩ := close_spec c ps hinv.2
    have ha' : Anchor a c.rules ps := by
      intro n ds e
      obtain ⟨K, g1, g2, g3⟩ := ha n ds e
      rcases List.mem_cons.1 g1 with rfl | g1
      · rw [hopen] at g2; cases g2
      · exact ⟨K, g1, g2, g3⟩
    obtain ⟨h4, h5⟩ := close_anims hG c a ps hinv.2 hg.2.2 ha'
    have he : Ctx.start (c :: ps) =
        ({ c with isOpen := true } :: (Ctx.closeUntilCommonParent c ps).1,
          (Ctx.closeUntilCommonParent c ps).2 ++
            Ctx.startLoop c (Ctx.closeUntilCommonParent c ps).1 0
              (Ctx.uniqueConditions c (Ctx.closeUntilCommonParent c ps).1)) := by
      simp [Ctx.start, hopen]
    rw [he]
    refine ⟨_, rfl, h1, ⟨fun _ => h3, h2⟩, h4, ?_⟩
    rw [cur_closed hopen]
    have hsub : ∀ x ∈ c.conditions.drop (cur (Ctx.closeUntilCommonParent c ps).1).length, x ∈ c.conditions :=
      fun x hx => List.mem_of_mem_drop hx
    have h6 := h5.append (startLoop_keep (c := c) (a := a) (G := G) h3
      (c.conditions.drop (cur (Ctx.closeUntilCommonParent c ps).1).length) _ 0 (by simp) (fun x hx => hc x (hsub x hx))
      (fun e x hx => hk e x (hsub x hx)))
    rw [unique_eq h3]
    rw [prefix_append_drop h3] at h6
    simpa using h6

theorem start_begin (hG : G .cls) (c : Ctx) (ps : List Ctx) (hinv : Inv (c :: ps)) (hg : Grow (c :: ps))
    (hopen : c.isOpen = false) {rules : List Str} {k : Str} (hcond : c.conditions = rules ++ [k])
    (hlt : ∀ m ∈ ps, m.conditions.length < c.conditions.length)
    (hc : ∀ x ∈ c.conditions, G (.opn x)) (hk : isKeyframes k) (hn : ∀ x ∈ rules, ¬ isKeyframes x) :
    ∃ ps', (Ctx.start (c :: ps)).1 = { c with isOpen := true } :: ps' ∧
      ClosedAll ps ps' ∧ Inv ({ c with isOpen := true } :: ps') ∧ Kept c.rules ps ps' ∧
      EmitsA G (cur (c :: ps)) none c.conditions (some (c.conditions.length, [])) (Ctx.start (c :: ps)).2 [] := by
  obtain ⟨h1, h2, h3, -⟩ := close_spec c ps hinv.2
  obtain ⟨h4, h5⟩ := close_anims hG c none ps hinv.2 hg.2.2 (by intro _ _ e; cases e)
  have he : Ctx.start (c :: ps) =
      ({ c with isOpen := true } :: (Ctx.closeUntilCommonParent c ps).1,
        (Ctx.closeUntilCommonParent c ps).2 ++
          Ctx.startLoop c (Ctx.closeUntilCommonParent c ps).1 0
            (Ctx.uniqueConditions c (Ctx.closeUntilCommonParent c ps).1)) := by
    simp [Ctx.start, hopen]
  rw [he]
  refine ⟨_, rfl, h1, ⟨fun _ => h3, h2⟩, h4, ?_⟩
  rw [cur_closed hopen, unique_eq h3]
  have hl := cur_length_lt _ _ _ h1 hlt (by rw [hcond]; simp)
  have hl' : (cur (Ctx.closeUntilCommonParent c ps).1).length ≤ rules.length := by
    rw [hcond] at hl; simp at hl; omega
  have hp : cur (Ctx.closeUntilCommonParent c ps).1 <+: rules := by
    have := h3
    rw [hcond] at this
    exact List.prefix_of_prefix_length_le this (List.prefix_append _ _) hl'
  have hd : c.conditions.drop (cur (Ctx.closeUntilCommonParent c ps).1).length =
      rules.drop (cur (Ctx.closeUntilCommonParent c ps).1).length ++ [k] := by
    rw [hcond, List.drop_append_of_le_length hl']
  rw [hd]
  have hsub : ∀ x ∈ rules.drop (cur (Ctx.closeUntilCommonParent c ps).1).length, x ∈ rules :=
    fun x hx => List.mem_of_mem_drop hx
  have h6 := h5.append (startLoop_begin (c := c) (G := G) h3 k hk
    (rules.drop (cur (Ctx.closeUntilCommonParent c ps).1).length) _ 0 (by simp)
    (fun x hx => hc x (by rw [hcond]; exact List.mem_append_left _ (hsub x hx))) (hc k (by rw [hcond]; simp))
    (fun x hx => hn x (hsub x hx)))
  rw [prefix_append_drop hp, ← hcond] at h6
  simpa using h6

/-! ## The tree -/

/-- The statement proved for a piece of the tree. -/
def WritesA (G : Ev → Prop) (c : Ctx) (ps : List Ctx) (a b : Option (Nat × List Decl)) (r : List Ctx × Str)
    (res : List Animation) : Prop :=
  ∃ c' ps', r.1 = c' :: ps' ∧ Same c c' ∧ ClosedAll ps ps' ∧ Inv (c' :: ps') ∧
    (c.isOpen = true → c.selector = none → c'.isOpen = true) ∧ Kept c.rules ps ps' ∧
    EmitsA G (cur (c :: ps)) a (cur (c' :: ps')) b r.2 res

/-- The animation that is read after some declarations. -/
def grown (a : Option (Nat × List Decl)) (f : Nat → List Decl) : Option (Nat × List Decl) :=
  a.map (fun (n, ds) => (n, ds ++ f n))

theorem grown_none {a : Option (Nat × List Decl)} {f : Nat → List Decl} : grown a f = none ↔ a = none := by
  cases a <;> simp [grown]

theorem grown_grown (a : Option (Nat × List Decl)) (f g : Nat → List Decl) :
    grown (grown a f) g = grown a (fun n => f n ++ g n) := by
  cases a <;> simp [grown]

theorem Anchor.grown {a : Option (Nat × List Decl)} {f : Nat → List Decl} {r : List Str} {L : List Ctx}
    (h : Anchor a r L) : Anchor (grown a f) r L := by
  intro n ds e
  cases a with
  | none => cases e
  | some x => cases e; exact h x.1 x.2 rfl

theorem Anchor.cons {a : Option (Nat × List Decl)} {r r' : List Str} {L : List Ctx} {c : Ctx} (h : Anchor a r L)
    (hr : r <+: r') : Anchor a r' (c :: L) := by
  intro n ds e
  obtain ⟨K, h1, h2, h3, h4, h5⟩ := h n ds e
  exact ⟨K, by simp [h1], h2, h3, h4, h5.trans hr⟩

/-- Printed selectors of blocks do not begin with `@`. -/
theorem head_join : ∀ l : List Str, (∀ s ∈ l, s.head? ≠ some '@') → (Str.join (c! ", ") l).head? ≠ some '@'
  | [], _ => by simp [Str.join]
  | [s], h => by simpa [Str.join] using h s (by simp)
  | s :: t :: l, h => by
    have h1 := h s (by simp)
    rw [Str.join]
    · cases s with
      | nil => simp
      | cons c s => simpa using h1
    · simp

theorem head_block {sel : Str → Str} {cls : Option Str}
    (hsel : ∀ s : Str, s.head? ≠ some '@' → (sel s).head? ≠ some '@') {outer : Option Str}
    (ho : ∀ o ∈ outer, ¬ isKeyframes o) {cond : List Selector} (hc : ∀ s ∈ cond, s.flatten.head? ≠ some '@') :
    ¬ isKeyframes (blockSelector sel (current cls) outer cond) := by
  cases cond with
  | nil =>
    cases outer with
    | none => cases cls <;> (simp only [blockSelector, Option.getD_none, current]; rintro ⟨t, ht⟩; cases ht)
    | some o => simpa [blockSelector] using ho o rfl
  | cons s l =>
    intro h
    have h1 : (blockSelector sel (current cls) outer (s :: l)).head? ≠ some '@' := by
      apply head_join
      intro x hx
      obtain ⟨y, hy, rfl⟩ := List.mem_map.1 hx
      exact hsel _ (hc y hy)
    obtain ⟨t, ht⟩ := h
    rw [← ht] at h1
    exact h1 rfl

/-- All headers and declarations of a piece satisfy `G`. -/
structure Good (G : Ev → Prop) (ds : List Decl) (ks : List (List Str)) : Prop where
  path : ∀ d ∈ ds, ∀ h ∈ d.path, G (.opn h)
  decl : ∀ d ∈ ds, G (.decl d.key d.value)
  kf : ∀ k ∈ ks, ∀ h ∈ k, G (.opn h)

theorem Good.left {d1 d2 : List Decl} {k1 k2 : List (List Str)} (h : Good G (d1 ++ d2) (k1 ++ k2)) : Good G d1 k1 :=
  ⟨fun d hd => h.path d (List.mem_append_left _ hd), fun d hd => h.decl d (List.mem_append_left _ hd),
    fun k hk => h.kf k (List.mem_append_left _ hk)⟩

theorem Good.right {d1 d2 : List Decl} {k1 k2 : List (List Str)} (h : Good G (d1 ++ d2) (k1 ++ k2)) : Good G d2 k2 :=
  ⟨fun d hd => h.path d (List.mem_append_right _ hd), fun d hd => h.decl d (List.mem_append_right _ hd),
    fun k hk => h.kf k (List.mem_append_right _ hk)⟩

/-- What is needed while no animation is being read. -/
def Outer (a : Option (Nat × List Decl)) (c : Ctx) (block : Bool) (frames : Prop) : Prop :=
  a = none → (∀ x ∈ c.conditions, ¬ isKeyframes x) ∧ (c.selector ≠ none → block = true) ∧ frames

/-- The animations that end: none while one is being read. -/
def ended (a : Option (Nat × List Decl)) (as : List Animation) : List Animation := if a = none then as else []

theorem ended_append (a : Option (Nat × List Decl)) (as bs : List Animation) :
    ended a (as ++ bs) = ended a as ++ ended a bs := by
  unfold ended; split <;> simp

mutual
theorem write_anims (hG : G .cls) : ∀ (x : RBC) (c : Ctx) (ps : List Ctx) (a : Option (Nat × List Decl)) (block : Bool),
    (∀ s : Str, s.head? ≠ some '@' → (sel c.className s).head? ≠ some '@') →
    Inv (c :: ps) → Grow (c :: ps) → Anchor a c.rules (c :: ps) → Outer a c block (FramesIn block x) →
    Good G (declsIn (sel c.className) (current c.className) c.rules c.selector x)
      (keyframesIn (sel c.className) (current c.className) c.rules c.selector x) →
    WritesA G c ps a
      (grown a (fun n => declsIn (sel c.className) (current c.className) (c.rules.drop n) c.selector x))
      (x.write (c :: ps)) (ended a (animationsIn (sel c.className) (current c.className) c.rules x))
  | .attr k v, c, ps, a, block, hsel, hinv, hg, ha, hf, hgood => by
    have hpath := hgood.path ⟨c.rules ++ c.selector.toList, k, v.flatten⟩ (by simp [declsIn])
    have hdecl := hgood.decl ⟨c.rules ++ c.selector.toList, k, v.flatten⟩ (by simp [declsIn])
    obtain ⟨ps', h1, h2, h3, h4, h5⟩ := start_anims hG c ps a hinv hg ha hpath (fun e => (hf e).1)
    refine ⟨{ c with isOpen := true }, ps', ?_, ⟨rfl, rfl, rfl⟩, h2, h3, fun _ _ => rfl, h4, ?_⟩
    · simp only [RBC.write]
      rw [h1]
    · simp only [RBC.write]
      rw [h1, cur_open (c := { c with isOpen := true }) rfl]
      simp only [List.append_assoc]
      have he : ended a (animationsIn (sel c.className) (current c.className) c.rules (.attr k v)) = [] ++ [] := by
        simp [ended, animationsIn]
      rw [he]
      refine h5.append ⟨[.decl k v.flatten], ?_, ?_, by simpa using hdecl⟩
      · simp [layout, Ctx.writePadding, pad_eq, Ctx.conditions]
      · cases a with
        | none => simp [readAnims, grown, Ctx.conditions]
        | some p =>
          obtain ⟨n, ds⟩ := p
          obtain ⟨K, -, -, -, hn, hr⟩ := ha n ds rfl
          have hn' : n ≤ c.rules.length := Nat.le_trans hn hr.length_le
          simp [readAnims, grown, Ctx.conditions, declsIn, List.drop_append_of_le_length hn']
  | .rule cond content, c, ps, a, block, hsel, hinv, hg, ha, hf, hgood => by
    have hinv1 : Inv (c.withRuleCondition cond.flatten :: c :: ps) := ⟨by simp [Ctx.withRuleCondition], hinv⟩
    have hlen : (c.withRuleCondition cond.flatten).conditions.length = c.conditions.length + 1 := by
      simp [Ctx.withRuleCondition, Ctx.conditions]; omega
    have hlt : ∀ m ∈ c :: ps, m.conditions.length < (c.withRuleCondition cond.flatten).conditions.length := by
      intro m hm
      rw [hlen]
      rcases List.mem_cons.1 hm with rfl | hm
      · omega
      · have := hg.1 m hm; omega
    have hg1 : Grow (c.withRuleCondition cond.flatten :: c :: ps) := by
      refine ⟨fun m hm => Nat.le_of_lt (hlt m hm), ?_, hg⟩
      intro m hm
      rcases List.mem_cons.1 hm with rfl | hm
      · exact id
      · exact hg.2.1 m hm
    have hr1 : c.rules <+: (c.withRuleCondition cond.flatten).rules := List.prefix_append _ _
    have ha1 : Anchor a (c.withRuleCondition cond.flatten).rules (c.withRuleCondition cond.flatten :: c :: ps) :=
      ha.cons hr1
    have hcond : (c.withRuleCondition cond.flatten).conditions = c.rules ++ [cond.flatten] ++ c.selector.toList := by
      simp [Ctx.withRuleCondition, Ctx.conditions]
    simp only [RBC.write]
    by_cases hk : Str.startsWith (c! "@keyframes") cond.flatten = true
    · have hk' : isKeyframes cond.flatten := List.isPrefixOf_iff_prefix.1 hk
      have hgc : ∀ x ∈ (c.withRuleCondition cond.flatten).conditions, G (.opn x) := by
        intro x hx
        refine hgood.kf (c.rules ++ [cond.flatten] ++ c.selector.toList) ?_ x (by rw [← hcond]; exact hx)
        rw [keyframesIn, if_pos (show c! "@keyframes" <+: cond.flatten from hk')]
        simp
      have hgood1 : Good G (declsInAll (sel c.className) (current c.className) (c.rules ++ [cond.flatten]) c.selector content)
          (keyframesInAll (sel c.className) (current c.className) (c.rules ++ [cond.flatten]) c.selector content) := by
        refine ⟨hgood.path, hgood.decl, fun k hm => hgood.kf k ?_⟩
        rw [keyframesIn]; exact List.mem_append_right _ hm
      rw [if_pos hk]
      cases a with
      | some p =>
        obtain ⟨n, ds⟩ := p
        obtain ⟨ps1, h1, h2, h3, h4, h5⟩ := start_anims hG _ _ (some (n, ds)) hinv1 hg1 ha1 hgc (by intro e; cases e)
        rw [h1]
        have hgs := Grow.same (c' := { c.withRuleCondition cond.flatten with isOpen := true }) ⟨rfl, rfl, rfl⟩ h2 hg1
        have ha2 : Anchor (some (n, ds)) (c.withRuleCondition cond.flatten).rules
            ({ c.withRuleCondition cond.flatten with isOpen := true } :: ps1) := by
          have hb : Anchor (some (n, ds)) (c.withRuleCondition cond.flatten).rules (c :: ps) := by
            intro n' ds' e
            obtain ⟨K, g1, g2, g3, g4, g5⟩ := ha n' ds' e
            exact ⟨K, g1, g2, g3, g4, g5.trans hr1⟩
          exact (hb.kept h2 h4).cons (List.prefix_refl _)
        obtain ⟨c2, ps2, e1, e2, e3, e4, e5, e6, e7⟩ := writes_anims hG content
          { c.withRuleCondition cond.flatten with isOpen := true } ps1 (some (n, ds)) block hsel h3 hgs ha2
          (by intro e; cases e) hgood1
        rw [e1]
        cases h2 with
        | @cons _ c1 _ ps1 hc hps =>
        cases e3 with
        | @cons _ c3 _ ps3 hc3 hps3 =>
        have hkept : Kept (c.withRuleCondition cond.flatten).rules (c :: ps) (c3 :: ps3) :=
          Kept.trans (.cons hc hps) h4 e6
        have hcl : ClosedAll (c :: ps) (c3 :: ps3) := .cons (hc.trans hc3) (hps.trans hps3)
        have hkept' := hkept.mono hr1
        have hg3 : Grow (c3 :: ps3) := Grow.closed hcl hg
        have hfin := finish_keep (G := G) hG e4 ((ha.kept hcl hkept').keep hg3 |> fun h => (show Keep
          (grown (some (n, ds)) (fun n => declsInAll (sel c.className) (current c.className)
            ((c.rules ++ [cond.flatten]).drop n) c.selector content)) (cur (c3 :: ps3)).length from by
              intro m es e; cases e; exact h n ds rfl))
        refine ⟨c3, ps3, rfl, (hc.trans hc3).same, hps.trans hps3, e4.2, ?_, hkept'.2, ?_⟩
        · intro ho hs; exact hkept'.1 ho hs (List.prefix_refl _)
        · have h8 := (h5.append (by rw [cur_open rfl] at e7; exact e7)).append hfin
          rw [cur_closed (c := c.withRuleCondition cond.flatten) rfl] at h8
          obtain ⟨K, -, -, -, hn, hr⟩ := ha n ds rfl
          have hn' : n ≤ c.rules.length := Nat.le_trans hn hr.length_le
          simpa [ended, grown, declsIn, Ctx.finishChain, List.drop_append_of_le_length hn'] using h8
      | none =>
        obtain ⟨f1, f2, f3⟩ := hf rfl
        rw [FramesIn, if_pos hk'] at f3
        have hsn : c.selector = none := by
          cases hs : c.selector with
          | none => rfl
          | some s => rw [f3] at f2; exact absurd (f2 (by simp [hs])) (by decide)
        have hcond' : (c.withRuleCondition cond.flatten).conditions = c.rules ++ [cond.flatten] := by
          rw [hcond, hsn]; simp
        obtain ⟨ps1, h1, h2, h3, h4, h5⟩ := start_begin hG _ _ hinv1 hg1 rfl hcond' hlt hgc hk'
          (fun x hx => f1 x (by simp [Ctx.conditions, hx]))
        rw [h1]
        have hgs := Grow.same (c' := { c.withRuleCondition cond.flatten with isOpen := true }) ⟨rfl, rfl, rfl⟩ h2 hg1
        have ha2 : Anchor (some ((c.withRuleCondition cond.flatten).conditions.length, []))
            (c.withRuleCondition cond.flatten).rules
            ({ c.withRuleCondition cond.flatten with isOpen := true } :: ps1) := by
          intro n ds e
          cases e
          refine ⟨_, List.mem_cons_self, rfl, hsn, ?_, List.prefix_refl _⟩
          rw [hcond']; exact Nat.le_refl _
        obtain ⟨c2, ps2, e1, e2, e3, e4, e5, e6, e7⟩ := writes_anims hG content
          { c.withRuleCondition cond.flatten with isOpen := true } ps1 _ block hsel h3 hgs ha2
          (by intro e; cases e) hgood1
        rw [e1]
        cases h2 with
        | @cons _ c1 _ ps1 hc hps =>
        cases e3 with
        | @cons _ c3 _ ps3 hc3 hps3 =>
        have hkept : Kept (c.withRuleCondition cond.flatten).rules (c :: ps) (c3 :: ps3) :=
          Kept.trans (.cons hc hps) h4 e6
        have hcl : ClosedAll (c :: ps) (c3 :: ps3) := .cons (hc.trans hc3) (hps.trans hps3)
        have hkept' := hkept.mono hr1
        have hc2 : c2.conditions = c.rules ++ [cond.flatten] := by rw [e2.conditions, ← hcond']; rfl
        have hfin := finish_end (G := G) hG e4 (e5 rfl hsn) (by
          rw [hc2, ← hcond']
          exact cur_length_lt _ _ _ hcl hlt (by rw [hcond']; simp))
          (declsInAll (sel c.className) (current c.className) [] none content)
        refine ⟨c3, ps3, rfl, (hc.trans hc3).same, hps.trans hps3, e4.2, ?_, hkept'.2, ?_⟩
        · intro ho hs; exact hkept'.1 ho hs (List.prefix_refl _)
        · have h7 := e7
          rw [cur_open rfl] at h7
          have h9 : grown (some ((c.withRuleCondition cond.flatten).conditions.length, []))
              (fun n => declsInAll (sel (c.withRuleCondition cond.flatten).className)
                (current (c.withRuleCondition cond.flatten).className)
                ((c.withRuleCondition cond.flatten).rules.drop n) (c.withRuleCondition cond.flatten).selector content) =
              some (c2.conditions.length, declsInAll (sel c.className) (current c.className) [] none content) := by
            rw [hcond', hc2]
            simp [grown, Ctx.withRuleCondition, hsn]
          rw [h9] at h7
          have h8 := (h5.append h7).append hfin
          rw [cur_closed (c := c.withRuleCondition cond.flatten) rfl] at h8
          simpa [ended, grown, animationsIn, hk', Ctx.finishChain, hc2] using h8
    · have hk' : ¬ isKeyframes cond.flatten := fun h => hk (List.isPrefixOf_iff_prefix.2 h)
      rw [if_neg hk]
      have hgood1 : Good G (declsInAll (sel c.className) (current c.className) (c.rules ++ [cond.flatten]) c.selector content)
          (keyframesInAll (sel c.className) (current c.className) (c.rules ++ [cond.flatten]) c.selector content) := by
        refine ⟨hgood.path, hgood.decl, fun k hm => hgood.kf k ?_⟩
        rw [keyframesIn]; exact List.mem_append_right _ hm
      have hf1 : Outer a (c.withRuleCondition cond.flatten) block (FramesAll block content) := by
        intro e
        obtain ⟨f1, f2, f3⟩ := hf e
        rw [FramesIn, if_neg hk'] at f3
        refine ⟨?_, f2, f3⟩
        intro x hx
        rw [hcond] at hx
        simp only [List.mem_append, List.mem_singleton] at hx
        rcases hx with (hx | rfl) | hx
        · exact f1 x (by simp [Ctx.conditions, hx])
        · exact hk'
        · exact f1 x (by simp only [Ctx.conditions, List.mem_append]; exact .inr hx)
      obtain ⟨c2, ps2, e1, e2, e3, e4, e5, e6, e7⟩ := writes_anims hG content
        (c.withRuleCondition cond.flatten) (c :: ps) a block hsel hinv1 hg1 ha1 hf1 hgood1
      simp only
      rw [e1]
      cases e3 with
      | @cons _ c3 _ ps3 hc3 hps3 =>
      have hkept' := e6.mono hr1
      have hcl : ClosedAll (c :: ps) (c3 :: ps3) := .cons hc3 hps3
      have hg3 : Grow (c3 :: ps3) := Grow.closed hcl hg
      have hfin := finish_keep (G := G) hG e4 (((ha.kept hcl hkept').grown
        (f := fun n => declsInAll (sel c.className) (current c.className)
            ((c.rules ++ [cond.flatten]).drop n) c.selector content)).keep hg3)
      refine ⟨c3, ps3, rfl, hc3.same, hps3, e4.2, ?_, hkept'.2, ?_⟩
      · intro ho hs; exact hkept'.1 ho hs (List.prefix_refl _)
      · have h8 := EmitsA.append e7 hfin
        rw [cur_closed (c := c.withRuleCondition cond.flatten) rfl] at h8
        have hgr : grown a (fun n => declsIn (sel c.className) (current c.className) (c.rules.drop n) c.selector
            (.rule cond content)) = grown a (fun n => declsInAll (sel c.className) (current c.className)
            ((c.rules ++ [cond.flatten]).drop n) c.selector content) := by
          cases a with
          | none => rfl
          | some p =>
            obtain ⟨n, ds⟩ := p
            obtain ⟨K, -, -, -, hn, hr⟩ := ha n ds rfl
            have hn' : n ≤ c.rules.length := Nat.le_trans hn hr.length_le
            simp [grown, declsIn, List.drop_append_of_le_length hn']
        rw [hgr, animationsIn, if_neg hk']
        simpa [Ctx.finishChain, Ctx.withRuleCondition] using h8
  | .block cond content, c, ps, a, block, hsel, hinv, hg, ha, hf, hgood => by
    have hbsel := blockSelector_eq c cond
    generalize hb : c.withBlockCondition (condStr c.className cond) = b at hbsel
    have hbcls : b.className = c.className := by rw [← hb]; rfl
    have hbrules : b.rules = c.rules := by rw [← hb]; rfl
    have hbopen : b.isOpen = false := by rw [← hb]; rfl
    have hinv1 : Inv (b :: c :: ps) := ⟨by simp [hbopen], hinv⟩
    have hlen : c.conditions.length ≤ b.conditions.length := by
      simp [Ctx.conditions, hbrules, hbsel]
    have hg1 : Grow (b :: c :: ps) := by
      refine ⟨?_, by simp [hbsel], hg⟩
      intro m hm
      rcases List.mem_cons.1 hm with rfl | hm
      · exact hlen
      · have := hg.1 m hm; omega
    have ha1 : Anchor a b.rules (b :: c :: ps) := by rw [hbrules]; exact ha.cons (List.prefix_refl _)
    have hf1 : Outer a b true (FramesAll true content) := by
      intro e
      obtain ⟨f1, f2, f3⟩ := hf e
      rw [FramesIn] at f3
      refine ⟨?_, fun _ => rfl, f3.2⟩
      intro x hx
      rw [Ctx.conditions, hbrules, hbsel] at hx
      simp only [Option.toList_some, List.mem_append, List.mem_singleton] at hx
      rcases hx with hx | rfl
      · exact f1 x (by simp [Ctx.conditions, hx])
      · refine head_block hsel ?_ f3.1
        intro o ho
        exact f1 o (by rw [Option.mem_def] at ho; simp [Ctx.conditions, ho])
    have hgood1 : Good G (declsInAll (sel b.className) (current b.className) b.rules b.selector content)
        (keyframesInAll (sel b.className) (current b.className) b.rules b.selector content) := by
      rw [hbcls, hbrules, hbsel]; exact hgood
    simp only [RBC.write]
    rw [hb]
    obtain ⟨c2, ps2, e1, e2, e3, e4, e5, e6, e7⟩ := writes_anims hG content b (c :: ps) a true
      (by rw [hbcls]; exact hsel) hinv1 hg1 ha1 hf1 hgood1
    rw [hbcls, hbrules, hbsel] at e7
    rw [hbrules] at e6
    cases e3 with
    | @cons _ c3 _ ps3 hc3 hps3 =>
    rw [e1]
    have hcl : ClosedAll (c :: ps) (c3 :: ps3) := .cons hc3 hps3
    have hg3 : Grow (c3 :: ps3) := Grow.closed hcl hg
    have hfin := finish_keep (G := G) hG e4 (((ha.kept hcl e6).grown
      (f := fun n => declsInAll (sel c.className) (current c.className) (c.rules.drop n)
        (some (blockSelector (sel c.className) (current c.className) c.selector cond)) content)).keep hg3)
    refine ⟨c3, ps3, rfl, hc3.same, hps3, e4.2, ?_, e6.2, ?_⟩
    · intro ho hs; exact e6.1 ho hs (List.prefix_refl _)
    · have h8 := EmitsA.append e7 hfin
      rw [cur_closed (c := b) hbopen] at h8
      rw [animationsIn]
      simpa [Ctx.finishChain, declsIn] using h8
theorem writes_anims (hG : G .cls) : ∀ (xs : List RBC) (c : Ctx) (ps : List Ctx) (a : Option (Nat × List Decl))
    (block : Bool), (∀ s : Str, s.head? ≠ some '@' → (sel c.className s).head? ≠ some '@') →
    Inv (c :: ps) → Grow (c :: ps) → Anchor a c.rules (c :: ps) → Outer a c block (FramesAll block xs) →
    Good G (declsInAll (sel c.className) (current c.className) c.rules c.selector xs)
      (keyframesInAll (sel c.className) (current c.className) c.rules c.selector xs) →
    WritesA G c ps a
      (grown a (fun n => declsInAll (sel c.className) (current c.className) (c.rules.drop n) c.selector xs))
      (RBC.writes xs (c :: ps)) (ended a (animationsInAll (sel c.className) (current c.className) c.rules xs))
  | [], c, ps, a, block, _, hinv, _, _, _, _ => by
    refine ⟨c, ps, rfl, ⟨rfl, rfl, rfl⟩, .refl _, hinv, fun h _ => h, Kept.refl _ _, ?_⟩
    have h1 : grown a (fun n => declsInAll (sel c.className) (current c.className) (c.rules.drop n) c.selector []) = a := by
      cases a <;> simp [grown, declsInAll]
    have h2 : ended a (animationsInAll (sel c.className) (current c.className) c.rules []) = [] := by
      simp [ended, animationsInAll]
    rw [h1, h2]
    exact EmitsA.nil _ _
  | x :: xs, c, ps, a, block, hsel, hinv, hg, ha, hf, hgood => by
    rw [declsInAll, keyframesInAll] at hgood
    obtain ⟨c1, ps1, a1, a2, a3, a4, a5, a6, a7⟩ := write_anims hG x c ps a block hsel hinv hg ha
      (fun e => ⟨(hf e).1, (hf e).2.1, by have := (hf e).2.2; rw [FramesAll] at this; exact this.1⟩) hgood.left
    have hanch : Anchor (grown a (fun n => declsIn (sel c.className) (current c.className) (c.rules.drop n) c.selector x))
        c1.rules (c1 :: ps1) := by
      refine Anchor.grown ?_
      intro n ds e
      obtain ⟨K, h1, h2, h3, h4, h5⟩ := ha n ds e
      rw [a2.2.1]
      rcases List.mem_cons.1 h1 with rfl | h1
      · exact ⟨c1, by simp, a5 h2 h3, by rw [a2.2.2]; exact h3, by rw [a2.2.1]; exact h4, by rw [a2.2.1]; exact h5⟩
      · obtain ⟨K', g1, g2, g3, g4⟩ := a6.anchor (a := a) a3 K h1 h2 h3 h5
        exact ⟨K', by simp [g1], g2, g3, by rw [g4]; exact h4, by rw [g4]; exact h5⟩
    obtain ⟨c2, ps2, b1, b2, b3, b4, b5, b6, b7⟩ := writes_anims hG xs c1 ps1
      (grown a (fun n => declsIn (sel c.className) (current c.className) (c.rules.drop n) c.selector x)) block
      (by rw [a2.1]; exact hsel) a4 (hg.same a2 a3) hanch
      (by
        intro e
        obtain ⟨f1, f2, f3⟩ := hf (grown_none.1 e)
        rw [FramesAll] at f3
        exact ⟨by rw [a2.conditions]; exact f1, by rw [a2.2.2]; exact f2, f3.2⟩)
      (by rw [a2.1, a2.2.1, a2.2.2]; exact hgood.right)
    simp only [RBC.writes, a1, b1]
    rw [a2.1, a2.2.1, a2.2.2, grown_grown] at b7
    rw [a2.2.1] at b6
    refine ⟨c2, ps2, rfl, ⟨b2.1.trans a2.1, b2.2.1.trans a2.2.1, b2.2.2.trans a2.2.2⟩, a3.trans b3, b4,
      fun ho hs => b5 (a5 ho hs) (by rw [a2.2.2]; exact hs), Kept.trans a3 a6 b6, ?_⟩
    have he : ended (grown a (fun n => declsIn (sel c.className) (current c.className) (c.rules.drop n) c.selector x))
        (animationsInAll (sel c.className) (current c.className) c.rules xs) =
        ended a (animationsInAll (sel c.className) (current c.className) c.rules xs) := by
      simp only [ended, grown_none]
    rw [he] at b7
    rw [animationsInAll, ended_append]
    have h8 := a7.append b7
    simpa only [declsInAll] using h8
end

/-! ## Reading the text -/

open GroupsP Text BrowserP

theorem tokens_cons {acc : Str} {q : At} {c : Char} {s : Str} (hq : Plain q)
    (h1 : ¬ (q = .out 0 ∧ (c = '{' ∨ c = '}' ∨ c = ';'))) (h2 : ¬ (q.isOut = true ∧ c = '/' ∧ s.head? = some '*')) :
    cssTokens acc q (c :: s) =
      match q.next c with
      | none => none
      | some q' => cssTokens (acc ++ [c]) q' s := by
  have e1 : ¬ (q = .out 0 ∧ c = '{') := fun e => h1 ⟨e.1, Or.inl e.2⟩
  have e2 : ¬ (q = .out 0 ∧ c = '}') := fun e => h1 ⟨e.1, Or.inr (Or.inl e.2)⟩
  have e3 : ¬ (q = .out 0 ∧ c = ';') := fun e => h1 ⟨e.1, Or.inr (Or.inr e.2)⟩
  cases q <;> first | exact hq.elim | (rw [cssTokens, if_neg e1, if_neg e2, if_neg e3, if_neg h2] <;> first | rfl | (intros; contradiction))

theorem tokens_append (t : Str) (ht : t.head? ≠ some '*') : ∀ (x acc : Str) (q q' : At),
    runText q x = some q' → cssTokens acc q (x ++ t) = cssTokens (acc ++ x) q' t
  | [], acc, q, q', h => by
    simp only [runText, Option.some.injEq] at h
    subst h; simp
  | c :: x, acc, q, q', h => by
    rw [runText] at h
    split at h
    · cases h
    rename_i h1
    split at h
    · cases h
    rename_i h2
    split at h
    · cases h
    rename_i q1 h3
    rw [List.cons_append, tokens_cons (plain_of_next h3) h1, h3]
    · dsimp only; rw [tokens_append t ht x _ _ _ h]; simp
    · rintro ⟨a, b, e⟩
      cases x with
      | nil => exact ht e
      | cons d x => exact h2 ⟨a, b, e⟩

theorem tokens_ws (t : Str) : ∀ (x acc : Str), Ws x → cssTokens acc (.out 0) (x ++ t) = cssTokens (acc ++ x) (.out 0) t
  | [], acc, _ => by simp
  | c :: x, acc, h => by
    have hc : Str.isWhitespace c = true := h c (by simp)
    rw [List.cons_append, tokens_cons (q := .out 0) trivial, ws_next hc]
    · dsimp only; rw [tokens_ws t x _ (fun d hd => h d (by simp [hd]))]; simp
    · rintro ⟨-, rfl | rfl | rfl⟩ <;> (revert hc; decide)
    · rintro ⟨-, rfl, -⟩; revert hc; decide

/-- The texts of an event are whole. -/
def WholeEv : Ev → Prop
  | .opn h => Whole h
  | .cls => True
  | .decl k v => (Whole k ∧ ':' ∉ k) ∧ Whole v

theorem tokens_layout : ∀ (evs : List Ev) (n : Nat) (acc : Str), Ws acc → (∀ e ∈ evs, WholeEv e) →
    cssTokens acc (.out 0) (layout n evs) = some evs
  | [], n, acc, hw, _ => by simp [layout, cssTokens, trim_ws hw]
  | .opn x :: evs, n, acc, hw, hg => by
    have hx : Whole x := hg (.opn x) (by simp)
    have ih := tokens_layout evs (n + 1) (c! "\n") (by decide) (fun e he => hg e (by simp [he]))
    simp only [layout, List.append_assoc]
    rw [tokens_ws _ _ _ (ws_indent _), tokens_append _ (by simp) _ _ _ _ hx.1]
    rw [show c! " {\n" ++ layout (n + 1) evs = c! " " ++ ('{' :: (c! "\n" ++ layout (n + 1) evs)) from rfl]
    rw [tokens_ws _ (c! " ") _ (by decide), cssTokens, if_pos ⟨rfl, rfl⟩]
    rotate_left
    · intros; contradiction
    · intros; contradiction
    · intros; contradiction
    rw [trim_append_ws _ (by decide), trim_ws_append _ (hw.append (ws_indent _)), hx.2]
    rw [tokens_ws _ (c! "\n") _ (by decide), List.nil_append, ih]; rfl
  | .cls :: evs, n, acc, hw, hg => by
    have ih := tokens_layout evs (n - 1) (c! "\n") (by decide) (fun e he => hg e (by simp [he]))
    simp only [layout, List.append_assoc]
    rw [tokens_ws _ _ _ (ws_indent _)]
    rw [show c! "}\n" ++ layout (n - 1) evs = '}' :: (c! "\n" ++ layout (n - 1) evs) from rfl]
    rw [cssTokens, if_neg (by decide), if_pos ⟨rfl, rfl⟩, if_pos (trim_ws (hw.append (ws_indent _)))]
    rotate_left
    · intros; contradiction
    · intros; contradiction
    · intros; contradiction
    rw [tokens_ws _ (c! "\n") _ (by decide), List.nil_append, ih]; rfl
  | .decl k v :: evs, n, acc, hw, hg => by
    obtain ⟨⟨hk, hkc⟩, hv⟩ : (Whole k ∧ ':' ∉ k) ∧ Whole v := hg (.decl k v) (by simp)
    have ih := tokens_layout evs n (c! "\n") (by decide) (fun e he => hg e (by simp [he]))
    simp only [layout, List.append_assoc]
    rw [tokens_ws _ _ _ (ws_indent _), tokens_append _ (by simp) _ _ _ _ hk.1]
    rw [show ∀ t : Str, c! ": " ++ t = ':' :: (c! " " ++ t) from fun _ => rfl]
    rw [tokens_cons (q := .out 0) trivial (by decide) (by rintro ⟨-, e, -⟩; revert e; decide), show At.next (.out 0) ':' = some (.out 0) from by decide]
    dsimp only
    rw [tokens_ws _ (c! " ") _ (by decide), tokens_append _ (by simp) _ _ _ _ hv.1]
    rw [show ∀ t : Str, c! ";\n" ++ t = ';' :: (c! "\n" ++ t) from fun _ => rfl]
    rw [cssTokens, if_neg (by decide), if_neg (by decide), if_pos ⟨rfl, rfl⟩]
    rotate_left
    · intros; contradiction
    · intros; contradiction
    · intros; contradiction
    have hsplit : splitColon (acc ++ indent n ++ k ++ [':'] ++ c! " " ++ v) =
        some (acc ++ indent n ++ k, c! " " ++ v) := by
      have := splitColon_append (c! " " ++ v) (acc ++ indent n ++ k) (by
        simp only [List.mem_append, not_or]
        exact ⟨⟨colon_ws hw, colon_ws (ws_indent _)⟩, hkc⟩)
      rw [← this]; congr 1; simp
    rw [hsplit]
    dsimp only
    rw [tokens_ws _ (c! "\n") _ (by decide)]
    rw [show ([] : Str) ++ c! "\n" = c! "\n" from rfl, ih]
    have e1 : Str.trim (acc ++ indent n ++ k) = k := by
      rw [trim_ws_append _ (hw.append (ws_indent _)), hk.2]
    have e2 : Str.trim (c! " " ++ v) = v := by rw [trim_ws_append _ (by decide), hv.2]
    rw [e1, e2]; rfl

/-- The reader of animations finds the same lines as the reader of declarations. -/
theorem readCss_tokens (s : Str) : ∀ (st : List Str) (acc : Str) (q : At),
    readCss st acc q s =
      (cssTokens acc q s).bind (fun evs => (readEvents st evs).map (fun (o, st') => (seenDecls o, st'))) := by
  induction s with
  | nil =>
    intro st acc q
    rw [readCss, cssTokens]
    split <;> simp [readEvents, seenDecls]
  | cons c s ih =>
    intro st acc q
    cases q with
    | opening n => rw [readCss, cssTokens, ih]
    | comment n => rw [readCss, cssTokens, ih]
    | closing n => rw [readCss, cssTokens, ih]
    | _ =>
      rw [readCss, cssTokens]
      · split
        · rw [ih]
          cases cssTokens [] (.out 0) s with
          | none => rfl
          | some evs => simp only [Option.bind_some, Option.map_some, readEvents]; cases readEvents (st ++ [Str.trim acc]) evs <;> rfl
        · split
          · by_cases h1 : Str.trim acc = []
            · by_cases h2 : st = []
              · simp only [h1, h2, ne_eq, not_true, and_false, if_false, if_true]
                cases cssTokens [] (.out 0) s <;> simp [readEvents]
              · simp only [h1, h2, ne_eq, not_false_eq_true, and_self, if_true]
                rw [ih]
                cases cssTokens [] (.out 0) s <;> simp [readEvents, h2]
            · simp [h1]
          · split
            · cases splitColon acc with
              | none => rfl
              | some p =>
                obtain ⟨k, v⟩ := p
                dsimp only
                rw [ih]
                cases cssTokens [] (.out 0) s with
                | none => rfl
                | some evs =>
                  simp only [Option.bind_some, Option.map_some, readEvents]
                  cases readEvents st evs <;> rfl
            · split
              · rw [ih]
              · split
                · rename_i h; rw [h]; rfl
                · rename_i h; rw [h]; exact ih _ _ _
      all_goals (intros; contradiction)

/-! ## Sheets -/

theorem scopeSelector_head {cls : Option Str} (s : Str) (hs : s.head? ≠ some '@') :
    (scopeSelector cls s).head? ≠ some '@' := by
  cases cls with
  | none =>
    simp only [scopeSelector]
    cases s using expandAmp.induct with
    | case1 => simp [expandAmp]
    | case2 s => rw [expandAmp]; simp
    | case3 c s hc => rw [expandAmp]; simpa using hs; exact hc
  | some k =>
    simp only [scopeSelector]
    split
    · cases s using expand.induct with
      | case1 => simp [expand]
      | case2 s => rw [expand]; simp
      | case3 s => rw [expand]; simp
      | case4 c s hc h2 => rw [expand]; simpa using hs; exact hc; exact h2
    · split <;> simp

theorem browser_animations (s : Sheet) (cls : Option Str) (hcls : ∀ c ∈ cls, CleanClass c) (hs : WholeSheet s)
    (hf : FramesOutside s) : browserAnimations (s.toStyleStr cls) = some (animations cls s) := by
  have hc : ∀ c ∈ cls, ':' ∉ c := fun c hm => class_colon (hcls c hm)
  obtain ⟨hd, hk⟩ := declsAll_whole hcls (s.map ScopeContent.toRBC) [] none hs (by simp) (by simp)
  obtain ⟨c', ps', h1, h2, h3, h4, -, -, evs, h5, h6, h7⟩ := writes_anims (G := WholeEv) trivial
    (s.map ScopeContent.toRBC) (Ctx.new cls) [] none false
    (by rw [show (Ctx.new cls).className = cls from rfl, sel_eq cls hc]; exact scopeSelector_head)
    ⟨by simp [Ctx.new], trivial⟩ ⟨by simp, by simp, trivial⟩ (by intro _ _ e; cases e)
    (fun _ => ⟨by simp [Ctx.new, Ctx.conditions], by simp [Ctx.new], hf⟩)
    (by
      rw [show (Ctx.new cls).className = cls from rfl, sel_eq cls hc]
      exact ⟨fun d hm => (hd d hm).1, fun d hm => (hd d hm).2, hk⟩)
  cases h3
  have hcur : cur [c'] = [] := by
    cases ho : c'.isOpen with
    | true => rw [cur_open ho, h2.conditions]; rfl
    | false => rw [cur_closed ho]; rfl
  rw [hcur] at h6
  have ht : s.toStyleStr cls = layout 0 evs := by rw [Sheet.toStyleStr, sheet_write_eq]; exact h5
  rw [show (Ctx.new cls).className = cls from rfl, sel_eq cls hc] at h6
  rw [ht, browserAnimations, tokens_layout evs 0 [] (by decide) h7]
  have h8 : readAnims [] none evs = some (animations cls s, [], none) := h6
  simp only [h8]

end AnimP
