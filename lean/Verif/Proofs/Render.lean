import Verif.Model.Render
import Verif.Spec.Css

/-!
# The writer emits a well-bracketed stream of events
-/

namespace Render
open Spec

/-! ## Streams -/

theorem read_append : ∀ (e1 e2 : List Ev) (st st1 : List Str) (o1 : List Obs),
    readEvents st e1 = some (o1, st1) →
    readEvents st (e1 ++ e2) = (readEvents st1 e2).map (fun (o, s) => (o1 ++ o, s))
  | [], e2, st, st1, o1, h => by
    simp only [readEvents, Option.some.injEq, Prod.mk.injEq] at h
    obtain ⟨rfl, rfl⟩ := h
    cases h : readEvents st e2 <;> simp [h]
  | .opn x :: e1, e2, st, st1, o1, h => by
    simp only [readEvents] at h
    cases hr : readEvents (st ++ [x]) e1 with
    | none => simp [hr] at h
    | some p =>
      obtain ⟨o, s⟩ := p
      simp only [hr, Option.some.injEq, Prod.mk.injEq] at h
      obtain ⟨rfl, rfl⟩ := h
      simp only [List.cons_append, readEvents, read_append e1 e2 _ _ _ hr]
      cases readEvents s e2 <;> simp
  | .cls :: e1, e2, st, st1, o1, h => by
    simp only [readEvents] at h
    split at h
    · simp at h
    · rename_i hne
      simp only [List.cons_append, readEvents, hne, if_false, read_append e1 e2 _ _ _ h]
  | .decl k v :: e1, e2, st, st1, o1, h => by
    simp only [readEvents] at h
    cases hr : readEvents st e1 with
    | none => simp [hr] at h
    | some p =>
      obtain ⟨o, s⟩ := p
      simp only [hr, Option.some.injEq, Prod.mk.injEq] at h
      obtain ⟨rfl, rfl⟩ := h
      simp only [List.cons_append, readEvents, read_append e1 e2 _ _ _ hr]
      cases readEvents s e2 <;> simp

theorem layout_append : ∀ (e1 e2 : List Ev) (st st1 : List Str) (o1 : List Obs),
    readEvents st e1 = some (o1, st1) →
    layout st.length (e1 ++ e2) = layout st.length e1 ++ layout st1.length e2
  | [], e2, st, st1, o1, h => by
    simp only [readEvents, Option.some.injEq, Prod.mk.injEq] at h
    obtain ⟨rfl, rfl⟩ := h
    simp [layout]
  | .opn x :: e1, e2, st, st1, o1, h => by
    simp only [readEvents] at h
    cases hr : readEvents (st ++ [x]) e1 with
    | none => simp [hr] at h
    | some p =>
      obtain ⟨o, s⟩ := p
      simp only [hr, Option.some.injEq, Prod.mk.injEq] at h
      obtain ⟨rfl, rfl⟩ := h
      have := layout_append e1 e2 _ _ _ hr
      simp only [List.length_append, List.length_cons, List.length_nil, Nat.zero_add] at this
      simp [layout, this]
  | .cls :: e1, e2, st, st1, o1, h => by
    simp only [readEvents] at h
    split at h
    · simp at h
    · rename_i hne
      have := layout_append e1 e2 _ _ _ h
      simp only [List.length_dropLast] at this
      simp [layout, this]
  | .decl k v :: e1, e2, st, st1, o1, h => by
    simp only [readEvents] at h
    cases hr : readEvents st e1 with
    | none => simp [hr] at h
    | some p =>
      obtain ⟨o, s⟩ := p
      simp only [hr, Option.some.injEq, Prod.mk.injEq] at h
      obtain ⟨rfl, rfl⟩ := h
      have := layout_append e1 e2 _ _ _ hr
      simp [layout, this]

/-- `out` is the text of a stream leading from the open headers `p` to `q`, during
which `obs` is seen. -/
def Emits (p q : List Str) (out : Str) (obs : List Obs) : Prop :=
  ∃ evs, out = layout p.length evs ∧ readEvents p evs = some (obs, q)

theorem Emits.nil (p : List Str) : Emits p p [] [] := ⟨[], by simp [layout], by simp [readEvents]⟩

theorem Emits.append {p q r : List Str} {o1 o2 : Str} {b1 b2 : List Obs}
    (h1 : Emits p q o1 b1) (h2 : Emits q r o2 b2) : Emits p r (o1 ++ o2) (b1 ++ b2) := by
  obtain ⟨e1, rfl, r1⟩ := h1
  obtain ⟨e2, rfl, r2⟩ := h2
  refine ⟨e1 ++ e2, ?_, ?_⟩
  · rw [layout_append e1 e2 _ _ _ r1]
  · rw [read_append e1 e2 _ _ _ r1, r2]; simp

/-! ## Padding -/

theorem pad_eq (n : Nat) : Ctx.writePaddingImpl n = indent n := by
  induction n with
  | zero => simp [Ctx.writePaddingImpl, indent]
  | succ n ih =>
    simp only [Ctx.writePaddingImpl, ih, indent]
    rw [show 4 * (n + 1) = 4 * n + 1 + 1 + 1 + 1 by omega]
    simp [List.replicate_succ]

theorem indent_add (m n : Nat) : indent (m + n) = indent m ++ indent n := by
  simp [indent, Nat.mul_add]

/-! ## Contexts -/

/-- The headers that are open, seen from a chain of contexts. -/
abbrev cur (ps : List Ctx) : List Str := Ctx.openParentConditions ps

theorem cur_nil : cur [] = [] := rfl

theorem cur_open {c : Ctx} {ps : List Ctx} (h : c.isOpen = true) : cur (c :: ps) = c.conditions := by
  simp [Ctx.openParentConditions, Ctx.openParent, h]

theorem cur_closed {c : Ctx} {ps : List Ctx} (h : c.isOpen = false) : cur (c :: ps) = cur ps := by
  simp [Ctx.openParentConditions, Ctx.openParent, h]

/-- Every open context lies inside the open headers of its ancestors. -/
def Inv : List Ctx → Prop
  | [] => True
  | c :: ps => (c.isOpen = true → cur ps <+: c.conditions) ∧ Inv ps

/-- `c'` is `c` possibly closed. -/
def Closed (c c' : Ctx) : Prop :=
  c'.className = c.className ∧ c'.rules = c.rules ∧ c'.selector = c.selector ∧
    (c'.isOpen = true → c.isOpen = true)

theorem Closed.refl (c : Ctx) : Closed c c := ⟨rfl, rfl, rfl, id⟩
theorem Closed.trans {a b c : Ctx} (h1 : Closed a b) (h2 : Closed b c) : Closed a c :=
  ⟨h2.1.trans h1.1, h2.2.1.trans h1.2.1, h2.2.2.1.trans h1.2.2.1, fun h => h1.2.2.2 (h2.2.2.2 h)⟩

theorem Closed.conditions {c c' : Ctx} (h : Closed c c') : c'.conditions = c.conditions := by
  simp [Ctx.conditions, h.2.1, h.2.2.1]

/-- The ancestors after, compared to before: some may have been closed. -/
inductive ClosedAll : List Ctx → List Ctx → Prop
  | nil : ClosedAll [] []
  | cons {c c' ps ps'} : Closed c c' → ClosedAll ps ps' → ClosedAll (c :: ps) (c' :: ps')

theorem ClosedAll.refl : ∀ ps, ClosedAll ps ps
  | [] => .nil
  | c :: ps => .cons (.refl c) (.refl ps)

theorem ClosedAll.trans : ∀ {a b c}, ClosedAll a b → ClosedAll b c → ClosedAll a c
  | _, _, _, .nil, .nil => .nil
  | _, _, _, .cons h1 t1, .cons h2 t2 => .cons (h1.trans h2) (t1.trans t2)

theorem common_length_le (p q : List Str) (f : Str × Str → Option Str) :
    ((p.zip q).filterMap f).length ≤ p.length := by
  refine Nat.le_trans (List.length_filterMap_le _ _) ?_
  rw [List.length_zip]; omega

/-- If every element of `p` is matched at its position, `p` is a prefix. -/
theorem prefix_of_common : ∀ p q : List Str,
    p.length ≤ ((p.zip q).filterMap (fun (m1, m2) => if m1 = m2 then some m1 else none)).length →
    p <+: q
  | [], q, _ => List.nil_prefix
  | a :: p, [], h => by simp at h
  | a :: p, b :: q, h => by
    by_cases hab : a = b
    · subst hab
      simp at h
      have := prefix_of_common p q h
      exact List.cons_prefix_cons.2 ⟨rfl, this⟩
    · simp [hab] at h
      exact absurd h (Nat.not_le.2 (Nat.lt_succ_of_le (common_length_le p q _)))

theorem common_of_prefix : ∀ p q : List Str, p <+: q →
    ((p.zip q).filterMap (fun (m1, m2) => if m1 = m2 then some m1 else none)).length = p.length
  | [], q, _ => by simp
  | a :: p, [], h => by simp at h
  | a :: p, b :: q, h => by
    rw [List.cons_prefix_cons] at h
    obtain ⟨rfl, h⟩ := h
    simp [common_of_prefix p q h]

theorem common_length {c : Ctx} {ps : List Ctx} (h : cur ps <+: c.conditions) :
    (Ctx.commonConditions c ps).length = (cur ps).length :=
  common_of_prefix _ _ h

theorem unique_eq {c : Ctx} {ps : List Ctx} (h : cur ps <+: c.conditions) :
    Ctx.uniqueConditions c ps = c.conditions.drop (cur ps).length := by
  rw [Ctx.uniqueConditions, common_length h]

/-- Closing the headers above `q`. -/
theorem emits_finishLoop {c : Ctx} {ps : List Ctx} (h : cur ps <+: c.conditions) :
    ∀ (n : Nat) (p : List Str), cur ps <+: p → p.length = (cur ps).length + n →
      Emits p (cur ps) (Ctx.finishLoop c ps n) []
  | 0, p, hp, hn => by
    have : cur ps = p := List.IsPrefix.eq_of_length hp (by omega)
    rw [← this]
    exact Emits.nil _
  | n + 1, p, hp, hn => by
    have hne : p ≠ [] := by intro h0; simp [h0] at hn
    have hpre : cur ps <+: p.dropLast := by
      obtain ⟨t, rfl⟩ := hp
      have : t ≠ [] := by
        intro h0; subst h0; simp at hn
      rw [List.dropLast_append_of_ne_nil this]
      exact List.prefix_append _ _
    obtain ⟨evs, he, hr⟩ := emits_finishLoop h n p.dropLast hpre (by simp; omega)
    refine ⟨.cls :: evs, ?_, ?_⟩
    · simp only [Ctx.finishLoop, layout, Ctx.writeMinPadding, pad_eq, common_length h]
      rw [← indent_add, he, List.length_dropLast]
      rw [show (cur ps).length + n = p.length - 1 by omega]
    · simp [readEvents, hne, hr]

theorem emits_finish {c : Ctx} {ps : List Ctx} (hinv : Inv (c :: ps)) :
    Emits (cur (c :: ps)) (cur ps) (Ctx.finish c ps).2 [] := by
  unfold Ctx.finish
  cases hopen : c.isOpen with
  | false => rw [cur_closed hopen]; exact Emits.nil _
  | true =>
    have hpre := hinv.1 hopen
    rw [cur_open hopen]
    simp only [if_true]
    apply emits_finishLoop hpre _ _ hpre
    rw [unique_eq hpre, List.length_drop]
    have := hpre.length_le
    omega

theorem close_spec (c : Ctx) : ∀ ps : List Ctx, Inv ps →
    let r := Ctx.closeUntilCommonParent c ps
    ClosedAll ps r.1 ∧ Inv r.1 ∧ cur r.1 <+: c.conditions ∧ Emits (cur ps) (cur r.1) r.2 []
  | [], _ => ⟨.nil, trivial, List.nil_prefix, Emits.nil _⟩
  | m :: ps, hinv => by
    simp only [Ctx.closeUntilCommonParent]
    have ih := close_spec c ps hinv.2
    cases hopen : m.isOpen with
    | false =>
      simp only [Bool.false_eq_true, if_false]
      obtain ⟨h1, h2, h3, h4⟩ := ih
      refine ⟨.cons (.refl _) h1, ⟨by simp [hopen], h2⟩, ?_, ?_⟩
      · rw [cur_closed hopen]; exact h3
      · rw [cur_closed hopen, cur_closed hopen]; exact h4
    | true =>
      simp only [if_true]
      split
      · rename_i hd
        refine ⟨.refl _, hinv, ?_, Emits.nil _⟩
        apply prefix_of_common
        simp only [Ctx.differConditions, List.isEmpty_iff, List.drop_eq_nil_iff] at hd
        exact hd
      · obtain ⟨h1, h2, h3, h4⟩ := ih
        refine ⟨.cons ⟨rfl, rfl, rfl, by simp [Ctx.finish]⟩ h1, ⟨by simp [Ctx.finish], h2⟩, ?_, ?_⟩
        · rw [cur_closed (by simp [Ctx.finish])]; exact h3
        · rw [cur_closed (c := (Ctx.finish m ps).1) (by simp [Ctx.finish])]
          exact (emits_finish hinv).append h4

/-- The observations made while entering the headers `hs` from `p`. -/
def enters : List Str → List Str → List Obs
  | _, [] => []
  | p, h :: hs => .enter (p ++ [h]) :: enters (p ++ [h]) hs

theorem emits_startLoop {c : Ctx} {ps : List Ctx} (h : cur ps <+: c.conditions) :
    ∀ (hs : List Str) (p : List Str) (i : Nat), p.length = (cur ps).length + i →
      Emits p (p ++ hs) (Ctx.startLoop c ps i hs) (enters p hs)
  | [], p, i, _ => by simpa [Ctx.startLoop, enters] using Emits.nil p
  | x :: hs, p, i, hp => by
    obtain ⟨evs, he, hr⟩ := emits_startLoop h hs (p ++ [x]) (i + 1) (by simp; omega)
    refine ⟨.opn x :: evs, ?_, ?_⟩
    · simp only [Ctx.startLoop, layout, Ctx.writeMinPadding, pad_eq, common_length h]
      rw [← indent_add, he, ← hp]
      simp
    · simp [readEvents, hr, enters]

theorem enters_prefix : ∀ (hs p : List Str) (o : Obs), o ∈ enters p hs →
    ∃ q, o = .enter q ∧ q <+: p ++ hs
  | x :: hs, p, o, h => by
    simp only [enters, List.mem_cons] at h
    rcases h with rfl | h
    · exact ⟨_, rfl, ⟨hs, by simp⟩⟩
    · obtain ⟨q, rfl, hq⟩ := enters_prefix hs (p ++ [x]) o h
      exact ⟨q, rfl, by simpa using hq⟩

theorem enters_mem : ∀ (hs p : List Str), hs ≠ [] → Obs.enter (p ++ hs) ∈ enters p hs
  | [x], p, _ => by simp [enters]
  | x :: y :: hs, p, _ => by
    rw [enters]
    refine List.mem_cons_of_mem _ ?_
    have := enters_mem (y :: hs) (p ++ [x]) (by simp)
    simpa using this

theorem cur_length_lt (n : Nat) : ∀ ps ps' : List Ctx, ClosedAll ps ps' →
    (∀ m ∈ ps, m.conditions.length < n) → 0 < n → (cur ps').length < n
  | _, _, .nil, _, h => h
  | c :: ps, c' :: ps', .cons h1 h2, hlt, h => by
    have ih := cur_length_lt n ps ps' h2 (fun m hm => hlt m (by simp [hm])) h
    cases ho : c'.isOpen with
    | true => rw [cur_open ho, h1.conditions]; exact hlt c (by simp)
    | false => rw [cur_closed ho]; exact ih

theorem prefix_append_drop {p q : List Str} (h : p <+: q) : p ++ q.drop p.length = q := by
  obtain ⟨t, rfl⟩ := h
  simp

theorem start_spec (c : Ctx) (ps : List Ctx) (hinv : Inv (c :: ps)) :
    ∃ ps', (Ctx.start (c :: ps)).1 = { c with isOpen := true } :: ps' ∧
      ClosedAll ps ps' ∧ Inv ({ c with isOpen := true } :: ps') ∧
      ∃ obs, Emits (cur (c :: ps)) c.conditions (Ctx.start (c :: ps)).2 obs ∧
        (∀ o ∈ obs, ∃ q, o = .enter q ∧ q <+: c.conditions) ∧
        (∃ p hs, obs = enters p hs ∧ p ++ hs = c.conditions) ∧
        (c.isOpen = false → (∀ m ∈ ps, m.conditions.length < c.conditions.length) →
          c.conditions ≠ [] → Obs.enter c.conditions ∈ obs) := by
  cases hopen : c.isOpen with
  | true =>
    have he : Ctx.start (c :: ps) = ({ c with isOpen := true } :: ps, []) := by
      simp [Ctx.start, hopen]
    rw [he]
    refine ⟨ps, rfl, .refl _, ?_, [], ?_, by simp, ⟨c.conditions, [], rfl, by simp⟩, by simp⟩
    · refine ⟨fun _ => hinv.1 hopen, hinv.2⟩
    · rw [cur_open hopen]; exact Emits.nil _
  | false =>
    obtain ⟨h1, h2, h3, h4⟩ := close_spec c ps hinv.2
    have he : Ctx.start (c :: ps) =
        ({ c with isOpen := true } :: (Ctx.closeUntilCommonParent c ps).1,
          (Ctx.closeUntilCommonParent c ps).2 ++
            Ctx.startLoop c (Ctx.closeUntilCommonParent c ps).1 0
              (Ctx.uniqueConditions c (Ctx.closeUntilCommonParent c ps).1)) := by
      simp [Ctx.start, hopen]
    rw [he]
    refine ⟨_, rfl, h1, ⟨fun _ => h3, h2⟩, enters (cur (Ctx.closeUntilCommonParent c ps).1)
        (c.conditions.drop (cur (Ctx.closeUntilCommonParent c ps).1).length), ?_, ?_,
        ⟨_, _, rfl, prefix_append_drop h3⟩, ?_⟩
    · rw [cur_closed hopen]
      have h5 := h4.append (emits_startLoop (c := c) h3
        (Ctx.uniqueConditions c (Ctx.closeUntilCommonParent c ps).1) _ 0 (by simp))
      rw [unique_eq h3] at h5 ⊢
      rw [prefix_append_drop h3] at h5
      simpa using h5
    · intro o ho
      obtain ⟨q, rfl, hq⟩ := enters_prefix _ _ _ ho
      rw [prefix_append_drop h3] at hq
      exact ⟨q, rfl, hq⟩
    · intro _ hlt hne
      have := enters_mem (c.conditions.drop (cur (Ctx.closeUntilCommonParent c ps).1).length)
        (cur (Ctx.closeUntilCommonParent c ps).1) ?_
      · rwa [prefix_append_drop h3] at this
      · intro h0
        rw [List.drop_eq_nil_iff] at h0
        have := cur_length_lt _ _ _ h1 hlt (List.length_pos_iff.2 hne)
        omega

/-! ## The tree -/

/-- How the writer prints a selector, as a function of its text. -/
def sel (cls : Option Str) (s : Str) : Str := Selector.write cls [s]

theorem write_eq_sel (cls : Option Str) (s : Selector) : Selector.write cls s = sel cls s.flatten := by
  simp [sel, Selector.write]

theorem blockSelector_eq (c : Ctx) (cond : List Selector) :
    (c.withBlockCondition (condStr c.className cond)).selector =
      some (blockSelector (sel c.className) (current c.className) c.selector cond) := by
  cases cond with
  | nil =>
    simp only [condStr, Ctx.withBlockCondition, blockSelector, List.isEmpty_nil, if_true]
    cases hs : c.selector <;> cases hc : c.className <;> simp [current]
  | cons s t =>
    have : Selector.write c.className = fun s : Selector => sel c.className s.flatten :=
      funext (write_eq_sel c.className)
    simp [condStr, Ctx.withBlockCondition, blockSelector, this]

/-- What follows directly on a header that was entered is in it, unless it is one of `ks`. -/
def Full (ks : List (List Str)) : List Obs → Prop
  | [] => True
  | .decl _ :: os => Full ks os
  | .enter p :: os =>
    (p ∈ ks ∨ (match os with
      | [] => False
      | .decl d :: _ => d.path = p
      | .enter q :: _ => ∃ h, q = p ++ [h])) ∧ Full ks os

theorem Full.mono {ks ks' : List (List Str)} (h : ∀ k ∈ ks, k ∈ ks') : ∀ {os : List Obs}, Full ks os → Full ks' os
  | [], _ => trivial
  | .decl _ :: os, hf => Full.mono (os := os) h hf
  | .enter _ :: os, hf => ⟨hf.1.imp (h _) id, Full.mono (os := os) h hf.2⟩

theorem Full.append {ks : List (List Str)} : ∀ {a b : List Obs}, Full ks a → Full ks b → Full ks (a ++ b)
  | [], _, _, hb => hb
  | .decl _ :: a, _, ha, hb => Full.append (a := a) ha hb
  | .enter _ :: a, _, ha, hb => by
    refine ⟨ha.1.imp id ?_, ha.2.append hb⟩
    cases a with
    | nil => exact False.elim
    | cons o a => cases o <;> exact id

theorem full_enters_decl (d : Decl) (ks : List (List Str)) : ∀ (hs p : List Str), p ++ hs = d.path →
    Full ks (enters p hs ++ [.decl d])
  | [], p, _ => trivial
  | [h], p, hp => ⟨.inr hp.symm, trivial⟩
  | h :: h' :: hs, p, hp =>
    ⟨.inr ⟨h', rfl⟩, full_enters_decl d ks (h' :: hs) (p ++ [h]) (by simpa using hp)⟩

theorem full_enters (k : List Str) : ∀ (hs p : List Str), p ++ hs = k → Full [k] (enters p hs)
  | [], p, _ => trivial
  | [h], p, hp => ⟨.inl (by simp [hp]), trivial⟩
  | h :: h' :: hs, p, hp => ⟨.inr ⟨h', rfl⟩, full_enters k (h' :: hs) (p ++ [h]) (by simpa using hp)⟩

theorem entered_enters : ∀ (hs p : List Str), (entered (enters p hs)).length = hs.length
  | [], _ => rfl
  | h :: hs, p => by
    have := entered_enters hs (p ++ [h])
    simp only [entered, enters, List.filterMap_cons, List.length_cons] at this ⊢
    omega

/-- What is seen when a piece of the tree is written. -/
structure Seen (obs : List Obs) (ds : List Decl) (ks : List (List Str)) : Prop where
  decls : seenDecls obs = ds
  kf : ∀ k ∈ ks, Obs.enter k ∈ obs
  only : ∀ p, Obs.enter p ∈ obs → (∃ d ∈ ds, p <+: d.path) ∨ (∃ k ∈ ks, p <+: k)
  few : (entered obs).length ≤ (ds.map (fun d => d.path.length)).sum + (ks.map List.length).sum
  full : Full ks obs

theorem Seen.append {o1 o2 : List Obs} {d1 d2 : List Decl} {k1 k2 : List (List Str)}
    (h1 : Seen o1 d1 k1) (h2 : Seen o2 d2 k2) : Seen (o1 ++ o2) (d1 ++ d2) (k1 ++ k2) where
  decls := by simp only [seenDecls, List.filterMap_append] at *; rw [← h1.decls, ← h2.decls]; rfl
  kf := by
    intro k hk
    rcases List.mem_append.1 hk with h | h
    · exact List.mem_append_left _ (h1.kf k h)
    · exact List.mem_append_right _ (h2.kf k h)
  only := by
    intro p hp
    rcases List.mem_append.1 hp with h | h
    · rcases h1.only p h with ⟨d, hd, hp⟩ | ⟨k, hk, hp⟩
      · exact .inl ⟨d, List.mem_append_left _ hd, hp⟩
      · exact .inr ⟨k, List.mem_append_left _ hk, hp⟩
    · rcases h2.only p h with ⟨d, hd, hp⟩ | ⟨k, hk, hp⟩
      · exact .inl ⟨d, List.mem_append_right _ hd, hp⟩
      · exact .inr ⟨k, List.mem_append_right _ hk, hp⟩
  few := by
    have e1 := h1.few
    have e2 := h2.few
    simp only [entered, List.filterMap_append, List.length_append, List.map_append, List.sum_append] at e1 e2 ⊢
    omega
  full := (h1.full.mono fun _ => List.mem_append_left _).append (h2.full.mono fun _ => List.mem_append_right _)

theorem Seen.nil : Seen [] [] [] := ⟨rfl, by simp, by simp, Nat.le_refl _, trivial⟩

/-- A chain in which conditions get longer. -/
def Grow : List Ctx → Prop
  | [] => True
  | c :: ps => (∀ m ∈ ps, m.conditions.length ≤ c.conditions.length) ∧
      (∀ m ∈ ps, m.selector ≠ none → c.selector ≠ none) ∧ Grow ps

theorem ClosedAll.mem : ∀ {ps ps' : List Ctx}, ClosedAll ps ps' → ∀ m' ∈ ps', ∃ m ∈ ps, Closed m m'
  | _, _, .nil, m', h => by simp at h
  | _, _, .cons (c := c) h1 h2, m', h => by
    rcases List.mem_cons.1 h with rfl | h
    · exact ⟨c, by simp, h1⟩
    · obtain ⟨m, hm, hc⟩ := h2.mem m' h
      exact ⟨m, by simp [hm], hc⟩

theorem Closed.setOpen {c c' : Ctx} (b : Bool) (h : Closed c c') :
    { c with isOpen := b }.conditions = c'.conditions ∧ c'.selector = c.selector :=
  ⟨h.conditions.symm, h.2.2.1⟩

/-- `c'` is `c` up to its flag. -/
def Same (c c' : Ctx) : Prop :=
  c'.className = c.className ∧ c'.rules = c.rules ∧ c'.selector = c.selector

theorem Closed.same {c c' : Ctx} (h : Closed c c') : Same c c' := ⟨h.1, h.2.1, h.2.2.1⟩
theorem Same.conditions {c c' : Ctx} (h : Same c c') : c'.conditions = c.conditions := by
  simp [Ctx.conditions, h.2.1, h.2.2]

theorem Grow.closed : ∀ {ps ps' : List Ctx}, ClosedAll ps ps' → Grow ps → Grow ps'
  | _, _, .nil, _ => trivial
  | _, _, .cons h1 h2, hg => by
    refine ⟨?_, ?_, Grow.closed h2 hg.2.2⟩
    · intro m' hm'
      obtain ⟨m, hm, hc⟩ := h2.mem m' hm'
      rw [hc.conditions, h1.conditions]; exact hg.1 m hm
    · intro m' hm'
      obtain ⟨m, hm, hc⟩ := h2.mem m' hm'
      rw [hc.2.2.1, h1.2.2.1]; exact hg.2.1 m hm

theorem Grow.same {c c' : Ctx} {ps ps' : List Ctx} (hs : Same c c') (hc : ClosedAll ps ps')
    (hg : Grow (c :: ps)) : Grow (c' :: ps') := by
  have := Grow.closed (.cons (.refl c) hc) hg
  refine ⟨?_, ?_, this.2.2⟩
  · intro m hm; rw [hs.conditions]; exact this.1 m hm
  · intro m hm; rw [hs.2.2]; exact this.2.1 m hm

/-- The statement proved for a piece of the tree. -/
def Writes (c : Ctx) (ps : List Ctx) (r : List Ctx × Str) (ds : List Decl) (ks : List (List Str)) :
    Prop :=
  ∃ c' ps', r.1 = c' :: ps' ∧ Same c c' ∧ ClosedAll ps ps' ∧ Inv (c' :: ps') ∧
    ∃ obs, Emits (cur (c :: ps)) (cur (c' :: ps')) r.2 obs ∧ Seen obs ds ks

theorem finish_spec {c : Ctx} {ps : List Ctx} (hinv : Inv (c :: ps)) :
    (Ctx.finishChain (c :: ps)).1 = { c with isOpen := false } :: ps ∧
      Emits (cur (c :: ps)) (cur ps) (Ctx.finishChain (c :: ps)).2 [] :=
  ⟨rfl, emits_finish hinv⟩

mutual
theorem write_spec : ∀ (x : RBC) (c : Ctx) (ps : List Ctx), Inv (c :: ps) → Grow (c :: ps) →
    Writes c ps (x.write (c :: ps))
      (declsIn (sel c.className) (current c.className) c.rules c.selector x)
      (keyframesIn (sel c.className) (current c.className) c.rules c.selector x)
  | .attr k v, c, ps, hinv, hg => by
    obtain ⟨ps', h1, h2, h3, obs, h4, h5, ⟨pp, hs, ho1, ho2⟩, -⟩ := start_spec c ps hinv
    refine ⟨{ c with isOpen := true }, ps', ?_, ⟨rfl, rfl, rfl⟩, h2, h3, obs ++ [.decl ⟨c.conditions, k, v.flatten⟩], ?_, ?_⟩
    · simp only [RBC.write]
      rw [h1]
    · simp only [RBC.write]
      rw [h1, cur_open (c := { c with isOpen := true }) rfl]
      simp only [List.append_assoc]
      refine h4.append ⟨[.decl k v.flatten], ?_, ?_⟩
      · simp [layout, Ctx.writePadding, pad_eq, Ctx.conditions]
      · rfl
    · constructor
      · have : seenDecls obs = [] := by
          simp only [seenDecls, List.filterMap_eq_nil_iff]
          intro o ho
          obtain ⟨q, rfl, -⟩ := h5 o ho
          rfl
        simp only [seenDecls, List.filterMap_append] at this ⊢
        rw [this]
        simp [declsIn, Ctx.conditions]
      · simp [keyframesIn]
      · intro p hp
        left
        simp only [List.mem_append, List.mem_singleton, reduceCtorEq, or_false] at hp
        obtain ⟨q, hq, hpre⟩ := h5 _ hp
        cases hq
        exact ⟨_, by simp [declsIn]; rfl, hpre⟩
      · have e := entered_enters hs pp
        have e2 : hs.length ≤ c.conditions.length := by rw [← ho2]; simp
        simp only [ho1, entered, List.filterMap_append, List.length_append, declsIn, keyframesIn] at e ⊢
        rw [e]
        simpa [Ctx.conditions] using e2
      · rw [ho1]
        exact full_enters_decl _ _ hs pp ho2
  | .rule cond content, c, ps, hinv, hg => by
    have hinv1 : Inv (c.withRuleCondition cond.flatten :: c :: ps) := ⟨by simp [Ctx.withRuleCondition], hinv⟩
    have hlen : (c.withRuleCondition cond.flatten).conditions.length = c.conditions.length + 1 := by
      simp [Ctx.withRuleCondition, Ctx.conditions]; omega
    have hg1 : Grow (c.withRuleCondition cond.flatten :: c :: ps) := by
      refine ⟨?_, ?_, hg⟩
      · intro m hm
        rw [hlen]
        rcases List.mem_cons.1 hm with rfl | hm
        · omega
        · have := hg.1 m hm; omega
      · intro m hm
        rcases List.mem_cons.1 hm with rfl | hm
        · exact id
        · exact hg.2.1 m hm
    simp only [RBC.write, declsIn, keyframesIn]
    by_cases hk : Str.startsWith (c! "@keyframes") cond.flatten = true
    · have hk' : c! "@keyframes" <+: cond.flatten := List.isPrefixOf_iff_prefix.1 hk
      obtain ⟨ps1, h1, h2, h3, obs1, h4, h5, ⟨pp, hs, ho1, ho2⟩, h6⟩ := start_spec _ _ hinv1
      rw [if_pos hk, if_pos hk', h1]
      cases h2 with
      | @cons _ c1 _ ps1 hc hps =>
      have hg2 := Grow.same (c' := { c.withRuleCondition cond.flatten with isOpen := true }) ⟨rfl, rfl, rfl⟩ (.cons hc hps) hg1
      obtain ⟨c2, ps2, e1, e2, e3, e4, obs2, e5, e6⟩ := writes_spec content _ _ h3 hg2
      cases e3 with
      | @cons _ c3 _ ps3 hc3 hps3 =>
      rw [e1]
      obtain ⟨f1, f2⟩ := finish_spec e4
      rw [f1]
      refine ⟨c3, ps3, rfl, (hc.trans hc3).same, hps.trans hps3, e4.2, (obs1 ++ obs2) ++ [], ?_, ?_⟩
      · refine (Emits.append (q := (c.withRuleCondition cond.flatten).conditions) ?_ ?_).append f2
        · rw [cur_closed (c := c.withRuleCondition cond.flatten) rfl] at h4
          exact h4
        · rw [cur_open rfl] at e5
          exact e5
      · rw [List.append_nil]
        have hent := h6 rfl (by
          intro m hm
          rw [hlen]
          rcases List.mem_cons.1 hm with rfl | hm
          · omega
          · have := hg.1 m hm; omega) (by intro h0; rw [h0] at hlen; simp at hlen)
        have hcond : (c.withRuleCondition cond.flatten).conditions = c.rules ++ [cond.flatten] ++ c.selector.toList := by
          simp [Ctx.withRuleCondition, Ctx.conditions]
        rw [hcond] at hent h5 ho2
        have s1 : Seen obs1 [] [c.rules ++ [cond.flatten] ++ c.selector.toList] := by
          refine ⟨?_, by simpa using hent, ?_, ?_, ho1 ▸ full_enters _ hs pp ho2⟩
          · simp only [seenDecls, List.filterMap_eq_nil_iff]
            intro o ho
            obtain ⟨q, rfl, -⟩ := h5 o ho
            rfl
          · intro p hp
            obtain ⟨q, hq, hpre⟩ := h5 _ hp
            cases hq
            exact .inr ⟨_, by simp, hpre⟩
          · rw [ho1, entered_enters]
            have := congrArg List.length ho2
            rw [List.length_append] at this
            simp only [List.map_cons, List.map_nil, List.sum_cons, List.sum_nil]
            omega
        exact s1.append e6
    · have hk' : ¬ c! "@keyframes" <+: cond.flatten := fun h => hk (List.isPrefixOf_iff_prefix.2 h)
      rw [if_neg hk, if_neg hk']
      obtain ⟨c2, ps2, e1, e2, e3, e4, obs2, e5, e6⟩ := writes_spec content _ _ hinv1 hg1
      cases e3 with
      | @cons _ c3 _ ps3 hc3 hps3 =>
      simp only [List.nil_append]
      rw [e1]
      obtain ⟨f1, f2⟩ := finish_spec e4
      rw [f1]
      refine ⟨c3, ps3, rfl, hc3.same, hps3, e4.2, obs2 ++ [], ?_, ?_⟩
      · rw [cur_closed (c := c.withRuleCondition cond.flatten) rfl] at e5
        exact e5.append f2
      · rw [List.append_nil]; exact e6
  | .block cond content, c, ps, hinv, hg => by
    have hsel := blockSelector_eq c cond
    generalize hb : c.withBlockCondition (condStr c.className cond) = b at hsel
    have hbcls : b.className = c.className := by rw [← hb]; rfl
    have hbrules : b.rules = c.rules := by rw [← hb]; rfl
    have hbopen : b.isOpen = false := by rw [← hb]; rfl
    have hinv1 : Inv (b :: c :: ps) := ⟨by simp [hbopen], hinv⟩
    have hlen : c.conditions.length ≤ b.conditions.length := by
      simp [Ctx.conditions, hbrules, hsel]
    have hg1 : Grow (b :: c :: ps) := by
      refine ⟨?_, by simp [hsel], hg⟩
      intro m hm
      rcases List.mem_cons.1 hm with rfl | hm
      · exact hlen
      · have := hg.1 m hm; omega
    simp only [RBC.write, declsIn, keyframesIn]
    rw [hb]
    obtain ⟨c2, ps2, e1, e2, e3, e4, obs2, e5, e6⟩ := writes_spec content _ _ hinv1 hg1
    rw [hbcls, hbrules, hsel] at e6
    cases e3 with
    | @cons _ c3 _ ps3 hc3 hps3 =>
    rw [e1]
    obtain ⟨f1, f2⟩ := finish_spec e4
    rw [f1]
    refine ⟨c3, ps3, rfl, hc3.same, hps3, e4.2, obs2 ++ [], ?_, ?_⟩
    · rw [cur_closed (c := b) hbopen] at e5
      exact e5.append f2
    · rw [List.append_nil]; exact e6
theorem writes_spec : ∀ (xs : List RBC) (c : Ctx) (ps : List Ctx), Inv (c :: ps) → Grow (c :: ps) →
    Writes c ps (RBC.writes xs (c :: ps))
      (declsInAll (sel c.className) (current c.className) c.rules c.selector xs)
      (keyframesInAll (sel c.className) (current c.className) c.rules c.selector xs)
  | [], c, ps, hinv, _ =>
    ⟨c, ps, rfl, ⟨rfl, rfl, rfl⟩, .refl _, hinv, [], Emits.nil _, Seen.nil⟩
  | x :: xs, c, ps, hinv, hg => by
    obtain ⟨c1, ps1, a1, a2, a3, a4, o1, a5, a6⟩ := write_spec x c ps hinv hg
    obtain ⟨c2, ps2, b1, b2, b3, b4, o2, b5, b6⟩ := writes_spec xs c1 ps1 a4 (hg.same a2 a3)
    simp only [RBC.writes, a1, b1, declsInAll, keyframesInAll]
    rw [a2.1, a2.2.1, a2.2.2] at b6
    exact ⟨c2, ps2, rfl, ⟨b2.1.trans a2.1, b2.2.1.trans a2.2.1, b2.2.2.trans a2.2.2⟩, a3.trans b3, b4, o1 ++ o2, a5.append b5, a6.append b6⟩
end

/-! ## Sheets -/

theorem sheet_write_eq : ∀ (s : Sheet) (chain : List Ctx),
    Sheet.write s chain = RBC.writes (s.map ScopeContent.toRBC) chain
  | [], _ => rfl
  | x :: xs, chain => by simp [Sheet.write, RBC.writes, sheet_write_eq xs]

theorem sheet_spec (s : Sheet) (cls : Option Str) :
    ∃ evs obs, s.toStyleStr cls = layout 0 evs ∧ readEvents [] evs = some (obs, []) ∧
      Seen obs (declsInAll (sel cls) (current cls) [] none (s.map ScopeContent.toRBC))
        (keyframesInAll (sel cls) (current cls) [] none (s.map ScopeContent.toRBC)) := by
  obtain ⟨c', ps', h1, h2, h3, h4, obs, ⟨evs, h5, h6⟩, h7⟩ :=
    writes_spec (s.map ScopeContent.toRBC) (Ctx.new cls) [] ⟨by simp [Ctx.new], trivial⟩
      ⟨by simp, by simp, trivial⟩
  cases h3
  have hc : cur [c'] = [] := by
    cases ho : c'.isOpen with
    | true => rw [cur_open ho, h2.conditions]; rfl
    | false => rw [cur_closed ho]; rfl
  rw [hc] at h6
  exact ⟨evs, obs, by rw [Sheet.toStyleStr, sheet_write_eq]; exact h5, h6, h7⟩

end Render
