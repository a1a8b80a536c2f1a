import Verif.Proofs.Render
import Verif.Proofs.Selector

/-! # From event streams to characters -/

namespace Text
open Spec

/-! ## Trimming -/

/-- Only white space. -/
def Ws (s : Str) : Prop := ∀ c ∈ s, Str.isWhitespace c = true

instance (s : Str) : Decidable (Ws s) := by unfold Ws; infer_instance

theorem Ws.append {a b : Str} (ha : Ws a) (hb : Ws b) : Ws (a ++ b) := by
  intro c hc
  rcases List.mem_append.1 hc with h | h
  · exact ha c h
  · exact hb c h

theorem ws_indent (d : Nat) : Ws (indent d) := by
  intro c hc
  rw [indent, List.mem_replicate] at hc
  rw [hc.2]; decide

theorem trimStart_ws_append : ∀ (w s : Str), Ws w → Str.trimStart (w ++ s) = Str.trimStart s
  | [], s, _ => rfl
  | c :: w, s, h => by
    simp only [Str.trimStart, List.cons_append]
    rw [List.dropWhile_cons_of_pos (h c (by simp))]
    exact trimStart_ws_append w s (fun d hd => h d (by simp [hd]))

theorem trimEnd_ws : ∀ w : Str, Ws w → Str.trimEnd w = []
  | [], _ => rfl
  | c :: w, h => by
    rw [Str.trimEnd, trimEnd_ws w (fun d hd => h d (by simp [hd]))]
    simp [h c (by simp)]

theorem trimEnd_append_ws : ∀ (s w : Str), Ws w → Str.trimEnd (s ++ w) = Str.trimEnd s
  | [], w, h => by simpa [Str.trimEnd] using trimEnd_ws w h
  | c :: s, w, h => by simp only [List.cons_append, Str.trimEnd, trimEnd_append_ws s w h]

theorem trim_ws_append {w : Str} (s : Str) (h : Ws w) : Str.trim (w ++ s) = Str.trim s := by
  simp [Str.trim, trimStart_ws_append w s h]

theorem trim_append_ws (s : Str) {w : Str} (h : Ws w) : Str.trim (s ++ w) = Str.trim s := by
  unfold Str.trim
  induction s with
  | nil =>
    have : Str.trimStart w = [] := by
      have := trimStart_ws_append w [] h
      simpa [Str.trimStart] using this
    simp only [List.nil_append, this]; rfl
  | cons c s ih =>
    by_cases hc : Str.isWhitespace c = true
    · simpa [Str.trimStart, hc] using ih
    · have h1 : Str.trimStart (c :: s ++ w) = (c :: s) ++ w := by
        simp [Str.trimStart, hc]
      have h2 : Str.trimStart (c :: s) = c :: s := by simp [Str.trimStart, hc]
      rw [h1, h2, trimEnd_append_ws _ _ h]

theorem trim_ws {w : Str} (h : Ws w) : Str.trim w = [] := by
  have := trim_ws_append [] h
  simpa [Str.trim, Str.trimStart, Str.trimEnd] using this

/-! ## Strings of a stream -/

theorem opn_mem (h : Str) : ∀ (evs : List Ev) (st st' : List Str) (obs : List Obs),
    readEvents st evs = some (obs, st') → Ev.opn h ∈ evs → ∃ p, Obs.enter p ∈ obs ∧ h ∈ p
  | .opn x :: evs, st, st', obs, hr, hm => by
    simp only [readEvents] at hr
    cases hr' : readEvents (st ++ [x]) evs with
    | none => simp [hr'] at hr
    | some p =>
      simp only [hr', Option.some.injEq, Prod.mk.injEq] at hr
      obtain ⟨rfl, rfl⟩ := hr
      rcases List.mem_cons.1 hm with h0 | h0
      · cases h0
        exact ⟨st ++ [h], by simp, by simp⟩
      · obtain ⟨q, hq, hh⟩ := opn_mem h evs _ _ _ hr' h0
        exact ⟨q, by simp [hq], hh⟩
  | .cls :: evs, st, st', obs, hr, hm => by
    simp only [readEvents] at hr
    split at hr
    · simp at hr
    · exact opn_mem h evs _ _ _ hr (by simpa using hm)
  | .decl k v :: evs, st, st', obs, hr, hm => by
    simp only [readEvents] at hr
    cases hr' : readEvents st evs with
    | none => simp [hr'] at hr
    | some p =>
      simp only [hr', Option.some.injEq, Prod.mk.injEq] at hr
      obtain ⟨rfl, rfl⟩ := hr
      obtain ⟨q, hq, hh⟩ := opn_mem h evs _ _ _ hr' (by simpa using hm)
      exact ⟨q, by simp [hq], hh⟩

theorem decl_mem (k v : Str) : ∀ (evs : List Ev) (st st' : List Str) (obs : List Obs),
    readEvents st evs = some (obs, st') → Ev.decl k v ∈ evs →
    ∃ d ∈ seenDecls obs, d.key = k ∧ d.value = v
  | .opn x :: evs, st, st', obs, hr, hm => by
    simp only [readEvents] at hr
    cases hr' : readEvents (st ++ [x]) evs with
    | none => simp [hr'] at hr
    | some p =>
      simp only [hr', Option.some.injEq, Prod.mk.injEq] at hr
      obtain ⟨rfl, rfl⟩ := hr
      obtain ⟨d, hd, hh⟩ := decl_mem k v evs _ _ _ hr' (by simpa using hm)
      exact ⟨d, by simpa [seenDecls] using hd, hh⟩
  | .cls :: evs, st, st', obs, hr, hm => by
    simp only [readEvents] at hr
    split at hr
    · simp at hr
    · exact decl_mem k v evs _ _ _ hr (by simpa using hm)
  | .decl k' v' :: evs, st, st', obs, hr, hm => by
    simp only [readEvents] at hr
    cases hr' : readEvents st evs with
    | none => simp [hr'] at hr
    | some p =>
      simp only [hr', Option.some.injEq, Prod.mk.injEq] at hr
      obtain ⟨rfl, rfl⟩ := hr
      rcases List.mem_cons.1 hm with h0 | h0
      · cases h0
        exact ⟨⟨st, k, v⟩, by simp [seenDecls], rfl, rfl⟩
      · obtain ⟨d, hd, hh⟩ := decl_mem k v evs _ _ _ hr' h0
        exact ⟨d, by simp only [seenDecls] at hd; simp [seenDecls, hd], hh⟩

/-! ## Braces -/

theorem braces_append (t : Str) : ∀ (x : Str) (d : Nat), (∀ c ∈ x, c ≠ '{' ∧ c ≠ '}') →
    braces d (x ++ t) = braces d t
  | [], d, _ => rfl
  | c :: x, d, h => by
    have hc := h c (by simp)
    have ih := braces_append t x d (fun e he => h e (by simp [he]))
    rw [List.cons_append, braces, ih]
    · simpa using hc.1
    · intro _ h; exact absurd h hc.2
    · intro _ _ h; exact absurd h hc.2

theorem nobrace_ws {w : Str} (h : Ws w) : ∀ c ∈ w, c ≠ '{' ∧ c ≠ '}' := by
  intro c hc
  have := h c hc
  constructor <;> (rintro rfl; revert this; decide)

/-- No braces in the strings of an event. -/
def NoBrace (s : Str) : Prop := ∀ c ∈ s, c ≠ '{' ∧ c ≠ '}'

theorem braces_layout : ∀ (evs : List Ev) (st st' : List Str) (obs : List Obs),
    readEvents st evs = some (obs, st') →
    (∀ h, Ev.opn h ∈ evs → NoBrace h) →
    (∀ k v, Ev.decl k v ∈ evs → NoBrace k ∧ NoBrace v) →
    braces st.length (layout st.length evs) = some st'.length
  | [], st, st', obs, hr, _, _ => by
    simp only [readEvents, Option.some.injEq, Prod.mk.injEq] at hr
    simp [layout, braces, hr.2]
  | .opn x :: evs, st, st', obs, hr, h1, h2 => by
    simp only [readEvents] at hr
    cases hr' : readEvents (st ++ [x]) evs with
    | none => simp [hr'] at hr
    | some p =>
      simp only [hr', Option.some.injEq, Prod.mk.injEq] at hr
      obtain ⟨rfl, rfl⟩ := hr
      have ih := braces_layout evs _ _ _ hr' (fun h hh => h1 h (by simp [hh]))
        (fun k v hh => h2 k v (by simp [hh]))
      simp only [layout, List.append_assoc]
      rw [braces_append _ _ _ (nobrace_ws (ws_indent _)), braces_append _ _ _ (h1 x (by simp))]
      simpa [braces] using ih
  | .cls :: evs, st, st', obs, hr, h1, h2 => by
    simp only [readEvents] at hr
    split at hr
    · simp at hr
    · rename_i hne
      have ih := braces_layout evs _ _ _ hr (fun h hh => h1 h (by simp [hh]))
        (fun k v hh => h2 k v (by simp [hh]))
      simp only [layout, List.append_assoc]
      rw [braces_append _ _ _ (nobrace_ws (ws_indent _))]
      obtain ⟨n, hn⟩ : ∃ n, st.length = n + 1 := by
        cases st with
        | nil => exact absurd rfl hne
        | cons a b => exact ⟨b.length, rfl⟩
      rw [List.length_dropLast] at ih
      rw [hn] at ih ⊢
      simpa [braces] using ih
  | .decl k v :: evs, st, st', obs, hr, h1, h2 => by
    simp only [readEvents] at hr
    cases hr' : readEvents st evs with
    | none => simp [hr'] at hr
    | some p =>
      simp only [hr', Option.some.injEq, Prod.mk.injEq] at hr
      obtain ⟨rfl, rfl⟩ := hr
      have ih := braces_layout evs _ _ _ hr' (fun h hh => h1 h (by simp [hh]))
        (fun k v hh => h2 k v (by simp [hh]))
      simp only [layout, List.append_assoc]
      rw [braces_append _ _ _ (nobrace_ws (ws_indent _)),
        braces_append _ _ _ (h2 k v (by simp)).1]
      rw [braces_append _ (c! ": ") _ (by decide), braces_append _ _ _ (h2 k v (by simp)).2]
      rw [braces_append _ (c! ";\n") _ (by decide)]
      exact ih

/-! ## The character-level reader -/

theorem readText_append (st : List Str) (t : Str) : ∀ (x acc : Str),
    (∀ c ∈ x, c ≠ '{' ∧ c ≠ '}' ∧ c ≠ ';') →
    readText st acc (x ++ t) = readText st (acc ++ x) t
  | [], acc, _ => by simp
  | c :: x, acc, h => by
    have hc := h c (by simp)
    rw [List.cons_append, readText, if_neg hc.1, if_neg hc.2.1, if_neg hc.2.2,
      readText_append st t x _ (fun e he => h e (by simp [he]))]
    simp

theorem plain_ws {w : Str} (h : Ws w) : ∀ c ∈ w, c ≠ '{' ∧ c ≠ '}' ∧ c ≠ ';' := by
  intro c hc
  have := h c hc
  refine ⟨?_, ?_, ?_⟩ <;> (rintro rfl; revert this; decide)

theorem splitColon_append (v : Str) : ∀ k : Str, ':' ∉ k → splitColon (k ++ ':' :: v) = some (k, v)
  | [], _ => rfl
  | c :: k, h => by
    simp only [List.mem_cons, not_or] at h
    rw [List.cons_append, splitColon, splitColon_append v k h.2]
    · rfl
    · intro h0; exact h.1 h0.symm

theorem colon_ws {w : Str} (h : Ws w) : ':' ∉ w := by
  intro hc
  have := h _ hc
  revert this; decide

theorem readText_layout : ∀ (evs : List Ev) (st st' : List Str) (obs : List Obs) (acc : Str),
    Ws acc → readEvents st evs = some (obs, st') →
    (∀ h, Ev.opn h ∈ evs → Clean h) →
    (∀ k v, Ev.decl k v ∈ evs → Clean k ∧ ':' ∉ k ∧ Clean v) →
    readText st acc (layout st.length evs) = some (seenDecls obs, st')
  | [], st, st', obs, acc, hw, hr, _, _ => by
    simp only [readEvents, Option.some.injEq, Prod.mk.injEq] at hr
    obtain ⟨rfl, rfl⟩ := hr
    simp [layout, readText, trim_ws hw, seenDecls]
  | .opn x :: evs, st, st', obs, acc, hw, hr, h1, h2 => by
    simp only [readEvents] at hr
    cases hr' : readEvents (st ++ [x]) evs with
    | none => simp [hr'] at hr
    | some p =>
      simp only [hr', Option.some.injEq, Prod.mk.injEq] at hr
      obtain ⟨rfl, rfl⟩ := hr
      have hx := h1 x (by simp)
      have ih := readText_layout evs _ _ _ (c! "\n") (by decide) hr' (fun h hh => h1 h (by simp [hh]))
        (fun k v hh => h2 k v (by simp [hh]))
      simp only [layout, List.append_assoc]
      rw [readText_append _ _ _ _ (plain_ws (ws_indent _)), readText_append _ _ _ _ hx.1]
      rw [show c! " {\n" ++ layout (st.length + 1) evs =
        c! " " ++ ('{' :: (c! "\n" ++ layout (st.length + 1) evs)) from rfl]
      rw [readText_append _ _ (c! " ") _ (by decide), readText, if_pos rfl]
      rw [trim_append_ws _ (by decide), trim_ws_append _ (hw.append (ws_indent _)), hx.2]
      rw [readText_append _ _ (c! "\n") _ (by decide)]
      rw [List.length_append] at ih
      have : seenDecls (.enter (st ++ [x]) :: p.1) = seenDecls p.1 := rfl
      rw [this]
      exact ih
  | .cls :: evs, st, st', obs, acc, hw, hr, h1, h2 => by
    simp only [readEvents] at hr
    split at hr
    · simp at hr
    · rename_i hne
      have ih := readText_layout evs _ _ _ (c! "\n") (by decide) hr (fun h hh => h1 h (by simp [hh]))
        (fun k v hh => h2 k v (by simp [hh]))
      simp only [layout, List.append_assoc]
      rw [readText_append _ _ _ _ (plain_ws (ws_indent _))]
      rw [show c! "}\n" ++ layout (st.length - 1) evs =
        '}' :: (c! "\n" ++ layout (st.length - 1) evs) from rfl]
      rw [readText, if_neg (by decide), if_pos rfl,
        if_pos ⟨trim_ws (hw.append (ws_indent _)), hne⟩]
      rw [readText_append _ _ (c! "\n") _ (by decide)]
      rw [List.length_dropLast] at ih
      exact ih
  | .decl k v :: evs, st, st', obs, acc, hw, hr, h1, h2 => by
    simp only [readEvents] at hr
    cases hr' : readEvents st evs with
    | none => simp [hr'] at hr
    | some p =>
      simp only [hr', Option.some.injEq, Prod.mk.injEq] at hr
      obtain ⟨rfl, rfl⟩ := hr
      obtain ⟨hk, hkc, hv⟩ := h2 k v (by simp)
      have ih := readText_layout evs _ _ _ (c! "\n") (by decide) hr' (fun h hh => h1 h (by simp [hh]))
        (fun k v hh => h2 k v (by simp [hh]))
      simp only [layout, List.append_assoc]
      rw [readText_append _ _ _ _ (plain_ws (ws_indent _)), readText_append _ _ _ _ hk.1]
      rw [readText_append _ _ (c! ": ") _ (by decide), readText_append _ _ _ _ hv.1]
      rw [show c! ";\n" ++ layout st.length evs =
        ';' :: (c! "\n" ++ layout st.length evs) from rfl]
      rw [readText, if_neg (by decide), if_neg (by decide), if_pos rfl]
      rw [show acc ++ indent st.length ++ k ++ c! ": " ++ v =
        (acc ++ indent st.length ++ k) ++ ':' :: (c! " " ++ v) by simp]
      rw [splitColon_append _ _ (by
        simp only [List.mem_append, not_or]
        exact ⟨⟨colon_ws hw, colon_ws (ws_indent _)⟩, hkc⟩)]
      simp only
      rw [readText_append _ _ (c! "\n") _ (by decide), List.nil_append, ih]
      simp only
      rw [trim_ws_append _ (hw.append (ws_indent _)), hk.2, trim_ws_append v (w := c! " ") (by decide), hv.2]
      rfl

end Text

namespace Text
open Spec

theorem sel_eq (cls : Option Str) (hc : ∀ c ∈ cls, ':' ∉ c) :
    Render.sel cls = scopeSelector cls := by
  funext s
  rw [Render.sel, SelectorP.write_spec cls hc]
  simp

/-- The writer's stream of events, with the specified observations. -/
theorem sheet_spec (s : Sheet) (cls : Option Str) (hc : ∀ c ∈ cls, ':' ∉ c) :
    ∃ evs obs, s.toStyleStr cls = layout 0 evs ∧ readEvents [] evs = some (obs, []) ∧
      Render.Seen obs (decls cls s) (keyframes cls s) := by
  have := Render.sheet_spec s cls
  rw [sel_eq cls hc] at this
  exact this

/-- Strings of the stream satisfy what holds of the specified paths, keys and values. -/
theorem strings_of_seen {P Q R : Str → Prop} {evs : List Ev} {obs : List Obs} {st st' : List Str}
    {ds : List Decl} {ks : List (List Str)}
    (hr : readEvents st evs = some (obs, st')) (hs : Render.Seen obs ds ks)
    (hd : ∀ d ∈ ds, (∀ h ∈ d.path, P h) ∧ Q d.key ∧ R d.value) (hk : ∀ k ∈ ks, ∀ h ∈ k, P h) :
    (∀ h, Ev.opn h ∈ evs → P h) ∧ (∀ k v, Ev.decl k v ∈ evs → Q k ∧ R v) := by
  constructor
  · intro h hh
    obtain ⟨p, hp, hm⟩ := opn_mem h evs _ _ _ hr hh
    rcases hs.only p hp with ⟨d, hd', hpre⟩ | ⟨k, hk', hpre⟩
    · exact (hd d hd').1 h (hpre.subset hm)
    · exact hk k hk' h (hpre.subset hm)
  · intro k v hh
    obtain ⟨d, hd', rfl, rfl⟩ := decl_mem k v evs _ _ _ hr hh
    rw [hs.decls] at hd'
    exact (hd d hd').2

mutual
/-- Whether there are declarations does not depend on how selectors are printed. -/
theorem decls_nil (sel sel' : Str → Str) (cur cur' : Str) : ∀ (x : RBC) (r r' : List Str) (o o' : Option Str),
    declsIn sel cur r o x = [] → declsIn sel' cur' r' o' x = []
  | .attr k v, r, r', o, o' => by simp [declsIn]
  | .rule c b, r, r', o, o' => by
    simp only [declsIn]; exact declsAll_nil sel sel' cur cur' b _ _ _ _
  | .block c b, r, r', o, o' => by
    simp only [declsIn]; exact declsAll_nil sel sel' cur cur' b _ _ _ _
theorem declsAll_nil (sel sel' : Str → Str) (cur cur' : Str) :
    ∀ (xs : List RBC) (r r' : List Str) (o o' : Option Str),
    declsInAll sel cur r o xs = [] → declsInAll sel' cur' r' o' xs = []
  | [], r, r', o, o' => by simp [declsInAll]
  | x :: xs, r, r', o, o' => by
    simp only [declsInAll, List.append_eq_nil_iff]
    exact fun h => ⟨decls_nil sel sel' cur cur' x _ _ _ _ h.1, declsAll_nil sel sel' cur cur' xs _ _ _ _ h.2⟩
end

mutual
/-- The same for `@keyframes`. -/
theorem keyframes_nil (sel sel' : Str → Str) (cur cur' : Str) : ∀ (x : RBC) (r r' : List Str) (o o' : Option Str),
    keyframesIn sel cur r o x = [] → keyframesIn sel' cur' r' o' x = []
  | .attr k v, r, r', o, o' => by simp [keyframesIn]
  | .rule c b, r, r', o, o' => by
    simp only [keyframesIn, List.append_eq_nil_iff]
    rintro ⟨h1, h2⟩
    refine ⟨?_, keyframesAll_nil sel sel' cur cur' b _ _ _ _ h2⟩
    split at h1
    · simp at h1
    · rename_i h; simp [h]
  | .block c b, r, r', o, o' => by
    simp only [keyframesIn]; exact keyframesAll_nil sel sel' cur cur' b _ _ _ _
theorem keyframesAll_nil (sel sel' : Str → Str) (cur cur' : Str) :
    ∀ (xs : List RBC) (r r' : List Str) (o o' : Option Str),
    keyframesInAll sel cur r o xs = [] → keyframesInAll sel' cur' r' o' xs = []
  | [], r, r', o, o' => by simp [keyframesInAll]
  | x :: xs, r, r', o, o' => by
    simp only [keyframesInAll, List.append_eq_nil_iff]
    exact fun h => ⟨keyframes_nil sel sel' cur cur' x _ _ _ _ h.1, keyframesAll_nil sel sel' cur cur' xs _ _ _ _ h.2⟩
end

/-! ### Characters of printed selectors -/

theorem replaceGo_mem (pat rep : Str) (d : Char) : ∀ (s : Str) (n : Nat),
    d ∈ Str.replaceGo pat rep n s → d ∈ rep ∨ d ∈ s
  | [], n => by simp [Str.replaceGo]
  | c :: s, n + 1 => by
    simp only [Str.replaceGo]
    exact fun h => (replaceGo_mem pat rep d s n h).imp id (.tail _)
  | c :: s, 0 => by
    simp only [Str.replaceGo]
    split
    · intro h
      rcases List.mem_append.1 h with h | h
      · exact .inl h
      · exact (replaceGo_mem pat rep d s _ h).imp id (.tail _)
    · intro h
      rcases List.mem_cons.1 h with h | h
      · exact .inr (h ▸ .head _)
      · exact (replaceGo_mem pat rep d s 0 h).imp id (.tail _)

theorem replaceChar_mem (c : Char) (rep s : Str) (d : Char) (h : d ∈ Str.replaceChar c rep s) : d ∈ rep ∨ d ∈ s := by
  simp only [Str.replaceChar, List.mem_flatMap] at h
  obtain ⟨e, he, h⟩ := h
  split at h
  · exact .inl h
  · exact .inr (by rw [List.mem_singleton] at h; exact h ▸ he)

/-- A printed selector has no characters but those of the selector and the class, `.`, a space
and those of `:root`. -/
theorem sel_mem (cls : Option Str) (s : Str) (d : Char) (h : d ∈ Render.sel cls s) :
    d ∈ s ∨ (∃ c ∈ cls, d ∈ c) ∨ d ∈ c! ". :root" := by
  unfold Render.sel Selector.write at h
  cases cls with
  | none =>
    simp only [List.flatten_cons, List.flatten_nil, List.append_nil] at h
    split at h
    · rcases replaceChar_mem _ _ _ _ h with h | h
      · exact .inr (.inr (by simp only [List.mem_cons, List.not_mem_nil, or_false] at h ⊢; grind))
      · exact .inl h
    · exact .inl h
  | some c =>
    have hd : d ∈ '.' :: c → d ∈ s ∨ (∃ c' ∈ some c, d ∈ c') ∨ d ∈ c! ". :root" := by
      intro h
      rcases List.mem_cons.1 h with h | h
      · exact .inr (.inr (by simp [h]))
      · exact .inr (.inl ⟨c, rfl, h⟩)
    simp only [List.flatten_cons, List.flatten_nil, List.append_nil] at h
    split at h
    · rcases replaceGo_mem _ _ _ _ _ h with h | h
      · exact hd h
      · rcases replaceChar_mem _ _ _ _ h with h | h
        · exact hd h
        · exact .inl h
    · rw [List.append_assoc, List.mem_append, List.mem_append] at h
      rcases h with h | h | h
      · exact hd h
      · split at h
        · simp at h
        · exact .inr (.inr (by simp only [List.mem_singleton] at h; simp [h]))
      · exact .inl h

theorem mem_join (sep : Str) (d : Char) : ∀ (l : List Str), d ∈ Str.join sep l → d ∈ sep ∨ ∃ s ∈ l, d ∈ s
  | [] => by simp [Str.join]
  | [s] => by simpa [Str.join] using Or.inr
  | s :: t :: l => by
    intro h
    rw [Str.join, List.mem_append, List.mem_append] at h
    · rcases h with (h | h) | h
      · exact .inr ⟨s, .head _, h⟩
      · exact .inl h
      · exact (mem_join sep d (t :: l) h).imp id fun ⟨x, hx, h⟩ => ⟨x, .tail _ hx, h⟩
    · simp

/-- What holds of no character of the texts of a sheet and of the class. -/
structure Avoids (P : Char → Prop) (cls : Option Str) : Prop where
  cls : ∀ c ∈ cls, ∀ d ∈ c, ¬ P d
  own : ∀ d ∈ c! "., :root", ¬ P d

theorem Avoids.sel {P : Char → Prop} {cls : Option Str} (h : Avoids P cls) {s : Str} (hs : ∀ d ∈ s, ¬ P d) :
    ∀ d ∈ Render.sel cls s, ¬ P d := by
  intro d hd
  rcases sel_mem cls s d hd with h1 | ⟨c, hc, h1⟩ | h1
  · exact hs d h1
  · exact h.cls c hc d h1
  · exact h.own d (by simp only [List.mem_cons, List.not_mem_nil, or_false] at h1 ⊢; grind)

theorem Avoids.cur {P : Char → Prop} {cls : Option Str} (h : Avoids P cls) : ∀ d ∈ current cls, ¬ P d := by
  intro d hd
  cases cls with
  | none => exact h.own d (by simp only [current, List.mem_cons, List.not_mem_nil, or_false] at hd ⊢; grind)
  | some c =>
    rcases List.mem_cons.1 hd with hd | hd
    · exact h.own d (by simp [hd])
    · exact h.cls c rfl d hd

theorem Avoids.block {P : Char → Prop} {cls : Option Str} (h : Avoids P cls) {o : Option Str}
    (ho : ∀ t ∈ o, ∀ d ∈ t, ¬ P d) {c : List Selector} (hc : ∀ t ∈ c.flatten, ∀ d ∈ t, ¬ P d) :
    ∀ d ∈ blockSelector (Render.sel cls) (current cls) o c, ¬ P d := by
  intro d hd
  unfold blockSelector at hd
  split at hd
  · cases o with
    | none => exact h.cur d hd
    | some t => exact ho t rfl d hd
  · rcases mem_join _ d _ hd with hd | ⟨s, hs, hd⟩
    · exact h.own d (by simp only [List.mem_cons, List.not_mem_nil, or_false] at hd ⊢; grind)
    · obtain ⟨x, hx, rfl⟩ := List.mem_map.1 hs
      refine h.sel ?_ d hd
      intro e he
      obtain ⟨t, ht, he⟩ := List.mem_flatten.1 he
      exact hc t (List.mem_flatten.2 ⟨x, hx, ht⟩) e he

theorem flatten_avoids {P : Char → Prop} {v : List Str} (h : ∀ t ∈ v, ∀ d ∈ t, ¬ P d) : ∀ d ∈ v.flatten, ¬ P d := by
  intro d hd
  obtain ⟨t, ht, hd⟩ := List.mem_flatten.1 hd
  exact h t ht d hd

mutual
theorem avoids_in {P : Char → Prop} {cls : Option Str} (h : Avoids P cls) : ∀ (x : RBC) (r : List Str) (o : Option Str),
    (∀ t ∈ textsIn x, ∀ d ∈ t, ¬ P d) → (∀ t ∈ r, ∀ d ∈ t, ¬ P d) → (∀ t ∈ o, ∀ d ∈ t, ¬ P d) →
    (∀ y ∈ declsIn (Render.sel cls) (current cls) r o x,
      (∀ t ∈ y.path, ∀ d ∈ t, ¬ P d) ∧ (∀ d ∈ y.key, ¬ P d) ∧ ∀ d ∈ y.value, ¬ P d) ∧
    ∀ k ∈ keyframesIn (Render.sel cls) (current cls) r o x, ∀ t ∈ k, ∀ d ∈ t, ¬ P d
  | .attr k v, r, o, hx, hr, ho => by
    simp only [declsIn, keyframesIn, List.mem_singleton, List.not_mem_nil, false_implies, implies_true, and_true]
    rintro y rfl
    simp only [textsIn, List.mem_cons] at hx
    refine ⟨?_, hx k (.inl rfl), flatten_avoids fun t ht => hx t (.inr ht)⟩
    intro t ht
    rcases List.mem_append.1 ht with ht | ht
    · exact hr t ht
    · exact ho t (by simpa using ht)
  | .rule c b, r, o, hx, hr, ho => by
    simp only [textsIn, List.mem_append] at hx
    have hc := flatten_avoids fun t ht => hx t (.inl ht)
    have hr' : ∀ t ∈ r ++ [c.flatten], ∀ d ∈ t, ¬ P d := by
      intro t ht
      rcases List.mem_append.1 ht with ht | ht
      · exact hr t ht
      · rw [List.mem_singleton] at ht; exact ht ▸ hc
    obtain ⟨h1, h2⟩ := avoids_all h b (r ++ [c.flatten]) o (fun t ht => hx t (.inr ht)) hr' ho
    simp only [declsIn, keyframesIn]
    refine ⟨h1, fun k hk => ?_⟩
    rcases List.mem_append.1 hk with hk | hk
    · split at hk
      · rw [List.mem_singleton] at hk
        subst hk
        intro t ht
        rcases List.mem_append.1 ht with ht | ht
        · exact hr' t ht
        · exact ho t (by simpa using ht)
      · simp at hk
    · exact h2 k hk
  | .block c b, r, o, hx, hr, ho => by
    simp only [textsIn, List.mem_append] at hx
    simp only [declsIn, keyframesIn]
    refine avoids_all h b r _ (fun t ht => hx t (.inr ht)) hr ?_
    intro t ht
    cases ht
    exact h.block ho fun t ht => hx t (.inl ht)
theorem avoids_all {P : Char → Prop} {cls : Option Str} (h : Avoids P cls) :
    ∀ (xs : List RBC) (r : List Str) (o : Option Str),
    (∀ t ∈ textsInAll xs, ∀ d ∈ t, ¬ P d) → (∀ t ∈ r, ∀ d ∈ t, ¬ P d) → (∀ t ∈ o, ∀ d ∈ t, ¬ P d) →
    (∀ y ∈ declsInAll (Render.sel cls) (current cls) r o xs,
      (∀ t ∈ y.path, ∀ d ∈ t, ¬ P d) ∧ (∀ d ∈ y.key, ¬ P d) ∧ ∀ d ∈ y.value, ¬ P d) ∧
    ∀ k ∈ keyframesInAll (Render.sel cls) (current cls) r o xs, ∀ t ∈ k, ∀ d ∈ t, ¬ P d
  | [], r, o, hx, hr, ho => by simp [declsInAll, keyframesInAll]
  | x :: xs, r, o, hx, hr, ho => by
    simp only [textsInAll, List.mem_append] at hx
    obtain ⟨h1, h2⟩ := avoids_in h x r o (fun t ht => hx t (.inl ht)) hr ho
    obtain ⟨h3, h4⟩ := avoids_all h xs r o (fun t ht => hx t (.inr ht)) hr ho
    simp only [declsInAll, keyframesInAll, List.mem_append]
    exact ⟨fun y hy => hy.elim (h1 y) (h3 y), fun k hk => hk.elim (h2 k) (h4 k)⟩
end

/-- The first thing that is seen lies at most one header deeper. -/
theorem first_obs : ∀ (evs : List Ev) (st st' : List Str) (o : Obs) (os : List Obs),
    readEvents st evs = some (o :: os, st') →
    match o with | .enter q => q.length ≤ st.length + 1 | .decl d => d.path.length ≤ st.length
  | [], st, st', o, os, h => by simp [readEvents] at h
  | .opn x :: evs, st, st', o, os, h => by
    simp only [readEvents] at h
    split at h
    · cases h
    · cases h; simp
  | .decl k v :: evs, st, st', o, os, h => by
    simp only [readEvents] at h
    split at h
    · cases h
    · cases h; simp
  | .cls :: evs, st, st', o, os, h => by
    simp only [readEvents] at h
    split at h
    · cases h
    · have := first_obs evs _ _ _ _ h
      cases o <;> simp only [List.length_dropLast] at this ⊢ <;> omega

theorem read_split : ∀ (a b : List Ev) (st st' : List Str) (obs : List Obs), readEvents st (a ++ b) = some (obs, st') →
    ∃ o1 st1 o2, readEvents st a = some (o1, st1) ∧ readEvents st1 b = some (o2, st') ∧ obs = o1 ++ o2
  | [], b, st, st', obs, h => ⟨[], st, obs, rfl, h, rfl⟩
  | .opn x :: a, b, st, st', obs, h => by
    simp only [List.cons_append, readEvents] at h ⊢
    split at h
    · cases h
    · rename_i o s hr
      cases h
      obtain ⟨o1, st1, o2, h1, h2, rfl⟩ := read_split a b _ _ _ hr
      exact ⟨_, st1, o2, by rw [h1], h2, rfl⟩
  | .decl k v :: a, b, st, st', obs, h => by
    simp only [List.cons_append, readEvents] at h ⊢
    split at h
    · cases h
    · rename_i o s hr
      cases h
      obtain ⟨o1, st1, o2, h1, h2, rfl⟩ := read_split a b _ _ _ hr
      exact ⟨_, st1, o2, by rw [h1], h2, rfl⟩
  | .cls :: a, b, st, st', obs, h => by
    simp only [List.cons_append, readEvents] at h ⊢
    split at h
    · cases h
    · rename_i hne
      obtain ⟨o1, st1, o2, h1, h2, rfl⟩ := read_split a b _ _ _ h
      exact ⟨o1, st1, o2, by rw [if_neg hne, h1], h2, rfl⟩

theorem full_tail {ks : List (List Str)} : ∀ {a b : List Obs}, Render.Full ks (a ++ b) → Render.Full ks b
  | [], _, h => h
  | .decl _ :: a, _, h => full_tail (a := a) h
  | .enter _ :: a, _, h => full_tail (a := a) h.2

/-- Nothing is closed directly after it was opened, except what is in `ks`. -/
theorem no_empty {evs : List Ev} {obs : List Obs} {ks : List (List Str)} {st' : List Str}
    (hr : readEvents [] evs = some (obs, st')) (hf : Render.Full ks obs) (a : List Ev) (h : Str) (b : List Ev)
    (he : evs = a ++ .opn h :: .cls :: b) : ∃ o st, readEvents [] a = some (o, st) ∧ st ++ [h] ∈ ks := by
  subst he
  obtain ⟨o1, st1, o2, h1, h2, rfl⟩ := read_split _ _ _ _ _ hr
  refine ⟨o1, st1, h1, ?_⟩
  have hf2 := full_tail hf
  simp only [readEvents] at h2
  split at h2
  · cases h2
  · rename_i o s hb
    cases h2
    rcases hf2.1 with hk | hk
    · exact hk
    · exfalso
      rw [if_neg (by simp)] at hb
      cases o with
      | nil => exact hk
      | cons x xs =>
        have := first_obs _ _ _ _ _ hb
        cases x with
        | enter q =>
          obtain ⟨y, rfl⟩ := hk
          simp only [List.length_append, List.length_dropLast] at this
          simp at this
          try omega
        | decl d =>
          have hk : d.path = st1 ++ [h] := hk
          simp only [hk, List.length_append, List.length_dropLast] at this
          simp at this
          try omega

theorem evs_nil_of_empty {evs : List Ev} {obs : List Obs} {st' : List Str}
    (hr : readEvents [] evs = some (obs, st')) (hs : Render.Seen obs [] []) : evs = [] := by
  cases evs with
  | nil => rfl
  | cons e es =>
    cases e with
    | opn h =>
      obtain ⟨p, hp, -⟩ := opn_mem h _ _ _ _ hr (by simp)
      rcases hs.only p hp with ⟨d, hd, -⟩ | ⟨d, hd, -⟩ <;> simp at hd
    | cls => simp [readEvents] at hr
    | decl k v =>
      obtain ⟨d, hd, -⟩ := decl_mem k v _ _ _ _ hr (by simp)
      rw [hs.decls] at hd
      simp at hd

theorem layout_eq_nil {d : Nat} {evs : List Ev} (h : layout d evs = []) : evs = [] := by
  cases evs with
  | nil => rfl
  | cons e es => cases e <;> simp [layout] at h

/-- The text of one line at nesting depth `d`. -/
def lineAt (d : Nat) : Option Ev → Str
  | some (.opn h) => List.replicate (4 * d) ' ' ++ h ++ c! " {\n"
  | some .cls => List.replicate (4 * (d - 1)) ' ' ++ c! "}\n"
  | some (.decl k v) => List.replicate (4 * d) ' ' ++ k ++ c! ": " ++ v ++ c! ";\n"
  | none => []

/-- Headers among the events. -/
def opens (evs : List Ev) : Nat := evs.countP (fun e => e matches .opn _)
/-- Closing braces among the events. -/
def closes (evs : List Ev) : Nat := evs.countP (fun e => e matches .cls)

theorem lineAt_opn (d : Nat) (h : Str) : lineAt d (some (.opn h)) = indent d ++ h ++ c! " {\n" := rfl
theorem lineAt_cls (d : Nat) : lineAt d (some .cls) = indent (d - 1) ++ c! "}\n" := rfl
theorem lineAt_decl (d : Nat) (k v : Str) :
    lineAt d (some (.decl k v)) = indent d ++ k ++ c! ": " ++ v ++ c! ";\n" := rfl

theorem layout_lines : ∀ (evs : List Ev) (st st' : List Str) (obs : List Obs),
    readEvents st evs = some (obs, st') →
    layout st.length evs = (List.range evs.length).flatMap (fun i =>
      lineAt (st.length + opens (evs.take i) - closes (evs.take i)) evs[i]?)
  | [], st, st', obs, _ => rfl
  | .opn x :: evs, st, st', obs, hr => by
    simp only [readEvents] at hr
    cases hr' : readEvents (st ++ [x]) evs with
    | none => simp [hr'] at hr
    | some p =>
      have ih := layout_lines evs _ _ _ hr'
      simp only [List.length_append, List.length_singleton] at ih
      simp only [layout, List.length_cons, List.range_succ_eq_map, List.flatMap_cons,
        List.flatMap_map, ih]
      simp only [List.take_zero, List.take_succ_cons, opens, closes, List.countP_nil,
        List.countP_cons, List.getElem?_cons_zero, List.getElem?_cons_succ, lineAt_opn]
      simp only [Bool.false_eq_true, if_true, if_false, Nat.add_zero, Nat.sub_zero]
      congr 1
      refine congrArg (List.flatMap · _) (funext fun i => congrArg (lineAt · _) ?_)
      omega
  | .cls :: evs, st, st', obs, hr => by
    simp only [readEvents] at hr
    split at hr
    · simp at hr
    · rename_i hne
      have hpos := List.length_pos_iff.2 hne
      have ih := layout_lines evs _ _ _ hr
      simp only [List.length_dropLast] at ih
      simp only [layout, List.length_cons, List.range_succ_eq_map, List.flatMap_cons,
        List.flatMap_map, ih]
      simp only [List.take_zero, List.take_succ_cons, opens, closes, List.countP_nil,
        List.countP_cons, List.getElem?_cons_zero, List.getElem?_cons_succ, lineAt_cls]
      simp only [Bool.false_eq_true, if_true, if_false, Nat.add_zero, Nat.sub_zero]
      congr 1
      refine congrArg (List.flatMap · _) (funext fun i => congrArg (lineAt · _) ?_)
      omega
  | .decl k v :: evs, st, st', obs, hr => by
    simp only [readEvents] at hr
    cases hr' : readEvents st evs with
    | none => simp [hr'] at hr
    | some p =>
      have ih := layout_lines evs _ _ _ hr'
      simp only [layout, List.length_cons, List.range_succ_eq_map, List.flatMap_cons,
        List.flatMap_map, ih]
      simp only [List.take_zero, List.take_succ_cons, opens, closes, List.countP_nil,
        List.countP_cons, List.getElem?_cons_zero, List.getElem?_cons_succ, lineAt_decl]
      simp only [Bool.false_eq_true, if_false, Nat.add_zero, Nat.sub_zero]

/-! ## The root context is not changed by a top-level item -/

theorem scope_closed (x : ScopeContent) (c : Ctx) (ps : List Ctx) (hinv : Render.Inv (c :: ps))
    (hg : Render.Grow (c :: ps)) :
    Render.ClosedAll (c :: ps) (x.toRBC.write (c :: ps)).1 := by
  cases x with
  | rule cond content =>
    simp only [ScopeContent.toRBC, RBC.write]
    have hinv1 : Render.Inv (c.withRuleCondition cond.flatten :: c :: ps) :=
      ⟨by simp [Ctx.withRuleCondition], hinv⟩
    have hlen : (c.withRuleCondition cond.flatten).conditions.length = c.conditions.length + 1 := by
      simp [Ctx.withRuleCondition, Ctx.conditions]; omega
    have hg1 : Render.Grow (c.withRuleCondition cond.flatten :: c :: ps) := by
      refine ⟨?_, ?_, hg⟩
      · intro m hm
        rw [hlen]
        rcases List.mem_cons.1 hm with rfl | hm
        · omega
        · have := hg.1 m hm; omega
      · intro m hm
        rcases List.mem_cons.1 hm with rfl | hm
        · exact id
        · exact hg.2.1 m hm
    split
    · obtain ⟨ps1, h1, h2, h3, -⟩ := Render.start_spec _ _ hinv1
      rw [h1]
      obtain ⟨c2, ps2, e1, e2, e3, e4, -⟩ := Render.writes_spec content _ _ h3
        (Render.Grow.same (c' := { c.withRuleCondition cond.flatten with isOpen := true })
          ⟨rfl, rfl, rfl⟩ h2 hg1)
      rw [e1]
      exact h2.trans e3
    · obtain ⟨c2, ps2, e1, e2, e3, e4, -⟩ := Render.writes_spec content _ _ hinv1 hg1
      simp only
      rw [e1]
      exact e3
  | block cond content =>
    simp only [ScopeContent.toRBC, RBC.write]
    have hsel := Render.blockSelector_eq c cond
    generalize hb : c.withBlockCondition (condStr c.className cond) = b at hsel
    have hbrules : b.rules = c.rules := by rw [← hb]; rfl
    have hbopen : b.isOpen = false := by rw [← hb]; rfl
    have hlen : c.conditions.length ≤ b.conditions.length := by
      simp [Ctx.conditions, hbrules, hsel]
    have hg1 : Render.Grow (b :: c :: ps) := by
      refine ⟨?_, by simp [hsel], hg⟩
      intro m hm
      rcases List.mem_cons.1 hm with rfl | hm
      · exact hlen
      · have := hg.1 m hm; omega
    obtain ⟨c2, ps2, e1, e2, e3, e4, -⟩ := Render.writes_spec content b (c :: ps)
      ⟨by simp [hbopen], hinv⟩ hg1
    rw [e1]
    exact e3

theorem scope_root (x : ScopeContent) (cls : Option Str) :
    (x.toRBC.write [Ctx.new cls]).1 = [Ctx.new cls] := by
  have := scope_closed x (Ctx.new cls) [] ⟨by simp [Ctx.new], trivial⟩ ⟨by simp, by simp, trivial⟩
  generalize (x.toRBC.write [Ctx.new cls]).1 = r at this
  cases this with
  | @cons _ c' _ ps' h1 h2 =>
    cases h2
    obtain ⟨a, b, d, e⟩ := h1
    cases c' with
    | mk cn ru se op =>
      simp only [Ctx.new, Bool.false_eq_true, imp_false, Bool.not_eq_true] at a b d e
      subst a b d e
      rfl

theorem write_append : ∀ (a b : Sheet) (cls : Option Str),
    Sheet.write a [Ctx.new cls] = ([Ctx.new cls], (Sheet.write a [Ctx.new cls]).2) ∧
    (Sheet.write (a ++ b) [Ctx.new cls]).2 =
      (Sheet.write a [Ctx.new cls]).2 ++ (Sheet.write b [Ctx.new cls]).2
  | [], b, cls => ⟨rfl, rfl⟩
  | x :: a, b, cls => by
    have h := scope_root x cls
    have ih := write_append a b cls
    refine ⟨?_, ?_⟩
    · simp only [Sheet.write]
      rw [h, ih.1]
    · simp only [Sheet.write, List.cons_append]
      rw [h, ih.2]
      simp

end Text
