import Verif.Spec.LiteralErrors
import Verif.Proofs.Literal
import Verif.Proofs.Report

/-!
# Compile errors of the macros with a string literal
-/

namespace Literal

open Output Spec

theorem isEq {t : Tree} (h : isPunct '=' t = true) : ∃ j, t = .punct '=' j := by
  cases t with
  | punct c j => simp only [isPunct, beq_iff_eq] at h; subst h; exact ⟨j, rfl⟩
  | ident => simp [isPunct] at h
  | lit => simp [isPunct] at h
  | group => simp [isPunct] at h

theorem isComma {t : Tree} (h : isPunct ',' t = true) : ∃ j, t = .punct ',' j := by
  cases t with
  | punct c j => simp only [isPunct, beq_iff_eq] at h; subst h; exact ⟨j, rfl⟩
  | ident => simp [isPunct] at h
  | lit => simp [isPunct] at h
  | group => simp [isPunct] at h

theorem insert_none {args : Args} {n : Str} {e : RExpr} : args.insert n e = none ↔ n ∈ names args := by
  cases h : args.insert n e with
  | none =>
    simp only [true_iff]
    apply Classical.byContradiction
    intro hn
    rw [insert_some.2 ⟨hn, rfl⟩] at h
    cases h
  | some a => simp [(insert_some.1 h).1]

/-! ## The arguments -/

theorem argLoopE_ok : ∀ (n : Nat) (ts : List Tree) (acc args : Args), ts.length < n →
    (argLoopE n ts acc = .ok args ↔ argLoop n ts acc = some args)
  | 0, _, _, _, h => by omega
  | n + 1, [], acc, args, _ => by simp [argLoopE, argLoop]
  | n + 1, [t0], acc, args, _ => by cases t0 <;> simp [argLoopE, argLoop]
  | n + 1, .punct _ _ :: t :: ts, acc, args, _ => by simp [argLoopE, argLoop]
  | n + 1, .lit _ _ :: t :: ts, acc, args, _ => by simp [argLoopE, argLoop]
  | n + 1, .group _ _ :: t :: ts, acc, args, _ => by simp [argLoopE, argLoop]
  | n + 1, .ident name raw :: t :: ts, acc, args, hl => by
    simp only [argLoopE, argLoop]
    split
    · have hlen : ∀ r, (argTokens ts).2 = some r → r.length < ts.length := by
        intro r h
        rcases (argTokens_spec ts).2 with ⟨h3, -⟩ | ⟨j2, r', h3, h4⟩
        · rw [h3] at h; cases h
        · rw [h3] at h; cases h
          have := congrArg List.length h4
          simp only [List.length_append, List.length_cons] at this
          omega
      rcases he : argTokens ts with ⟨e, _ | r⟩
      · simp only
        cases acc.insert (identText name raw) e <;> simp
      · simp only
        cases acc.insert (identText name raw) e with
        | none => simp
        | some acc' =>
          exact argLoopE_ok n r acc' args (by
            have := hlen r (by rw [he])
            simp only [List.length_cons] at hl
            omega)
    · simp

theorem argLoopE_sound : ∀ (n : Nat) (ts : List Tree) (acc : Args) (err : LErr), ts.length < n →
    argLoopE n ts acc = .error err → ∀ j, ArgsWrong (names acc) (.punct ',' j :: ts) err
  | 0, _, _, _, h, _ => by omega
  | n + 1, [], acc, err, _, h => by simp [argLoopE] at h
  | n + 1, .punct c j :: ts, acc, err, _, h => by
    simp only [argLoopE] at h; cases h
    exact fun _ => .ident _ _ _ _ (by simp)
  | n + 1, .lit _ _ :: ts, acc, err, _, h => by
    simp only [argLoopE] at h; cases h
    exact fun _ => .ident _ _ _ _ (by simp)
  | n + 1, .group _ _ :: ts, acc, err, _, h => by
    simp only [argLoopE] at h; cases h
    exact fun _ => .ident _ _ _ _ (by simp)
  | n + 1, [.ident name raw], acc, err, _, h => by
    simp only [argLoopE] at h; cases h
    rw [identText_eq]
    exact fun _ => .equals _ _ _ _ _ (by simp)
  | n + 1, .ident name raw :: t :: ts, acc, err, hl, h => by
    simp only [argLoopE, identText_eq] at h
    split at h
    · rename_i heq
      obtain ⟨j', rfl⟩ := isEq heq
      obtain ⟨hnc, hs⟩ := argTokens_spec ts
      rcases hs with ⟨h3, h4⟩ | ⟨j2, r, h3, h4⟩
      · have he : argTokens ts = ((argTokens ts).1, none) := Prod.ext rfl h3
        rw [he] at h
        simp only at h
        split at h
        · rename_i hi
          cases h
          exact fun _ => .duplicate _ _ _ _ _ _ (insert_none.1 hi)
        · cases h
      · have he : argTokens ts = ((argTokens ts).1, some r) := Prod.ext rfl h3
        rw [he] at h
        simp only at h
        split at h
        · rename_i hi
          cases h
          exact fun _ => .duplicate _ _ _ _ _ _ (insert_none.1 hi)
        · rename_i acc' hi
          obtain ⟨h5, rfl⟩ := insert_some.1 hi
          have hlt : r.length < n := by
            have := congrArg List.length h4
            simp only [List.length_append, List.length_cons] at this hl
            omega
          have ih := argLoopE_sound n r _ err hlt h j2
          intro j
          rw [h4]
          refine .more _ j name raw j' _ _ err h5 hnc ?_
          simpa [names] using ih
    · rename_i heq
      cases h
      refine fun _ => .equals _ _ _ _ _ ?_
      intro j' rest' hc
      cases hc
      exact heq (by simp [isPunct])

theorem argsWrong_cons {known : List Str} {ts : List Tree} {err : LErr} (h : ArgsWrong known ts err) :
    ∃ j r, ts = .punct ',' j :: r := by
  cases h <;> exact ⟨_, _, rfl⟩

theorem argLoopE_complete : ∀ (n : Nat) (ts : List Tree) (j : Bool) (acc : Args) (err : LErr), ts.length < n →
    ArgsWrong (names acc) (.punct ',' j :: ts) err → argLoopE n ts acc = .error err
  | 0, _, _, _, _, h, _ => by omega
  | n + 1, ts, j, acc, err, hl, h => by
    have heq : ∀ j', isPunct '=' (.punct '=' j') = true := by simp [isPunct]
    cases h with
    | ident _ _ t rest ht =>
      cases t with
      | ident name raw => exact absurd rfl (ht name raw)
      | punct => rfl
      | lit => rfl
      | group => rfl
    | equals _ _ name raw rest hr =>
      cases rest with
      | nil => simp only [argLoopE, identText_eq]
      | cons t rest =>
        have : isPunct '=' t = false := by
          rw [Bool.eq_false_iff]
          intro hp
          obtain ⟨j', rfl⟩ := isEq hp
          exact hr j' rest rfl
        simp [argLoopE, identText_eq, this]
    | duplicate _ _ name raw j' rest hm =>
      simp only [argLoopE, identText_eq, heq, if_true]
      rcases argTokens rest with ⟨e, _ | r⟩ <;> simp only [insert_none.2 hm]
    | more _ _ name raw j' e rest _ hm hnc hw =>
      obtain ⟨j2, r, rfl⟩ := argsWrong_cons hw
      have hins : acc.insert (nameText name raw) e = some (acc ++ [(nameText name raw, e)]) :=
        insert_some.2 ⟨hm, rfl⟩
      simp only [argLoopE, identText_eq, heq, if_true, argTokens_comma j2 r e hnc, hins]
      refine argLoopE_complete n r j2 _ err ?_ ?_
      · simp only [List.length_append, List.length_cons] at hl; omega
      · simpa [names] using hw

theorem parseArgsE_ok {ts : List Tree} {args : Args} :
    parseArgsE ts = .ok args ↔ ArgTokens ts args ∧ (names args).Nodup := by
  rw [← parseArgs_iff]
  cases ts with
  | nil => simp [parseArgsE, parseArgs]
  | cons t ts =>
    simp only [parseArgsE, parseArgs]
    split
    · exact argLoopE_ok _ _ _ _ (by omega)
    · simp

theorem parseArgsE_error {ts : List Tree} {err : LErr} :
    parseArgsE ts = .error err ↔ (∃ t rest, ts = t :: rest ∧ NotComma t ∧ err = .comma t) ∨ ArgsWrong [] ts err := by
  cases ts with
  | nil =>
    simp only [parseArgsE, reduceCtorEq, false_iff]
    rintro (⟨t, rest, h, -⟩ | h)
    · cases h
    · obtain ⟨j, r, h⟩ := argsWrong_cons h; cases h
  | cons t ts =>
    simp only [parseArgsE]
    split
    · rename_i hc
      obtain ⟨j, rfl⟩ := isComma hc
      constructor
      · exact fun h => .inr (argLoopE_sound _ _ _ _ (by omega) h j)
      · rintro (⟨t, rest, h, hn, -⟩ | h)
        · cases h; exact absurd rfl hn
        · exact argLoopE_complete _ _ j _ _ (by omega) h
    · rename_i hc
      simp only [Bool.not_eq_true] at hc
      constructor
      · intro h
        cases h
        exact .inl ⟨t, ts, rfl, (notComma_iff t).2 hc, rfl⟩
      · rintro (⟨t, rest, h, hn, rfl⟩ | h)
        · cases h; rfl
        · obtain ⟨j, r, h⟩ := argsWrong_cons h
          cases h
          simp [isPunct] at hc

/-! ## The texts -/

/-- An error version of a function agrees with the function, and its error is the first one in
some texts. -/
def Agree {α : Type} (known : List Str) (e : Except LErr (α × List Str)) (ss : List Str) (o : Option (α × List Str)) : Prop :=
  (∃ r, e = .ok r ∧ o = some r ∧ ∀ s ∈ ss, TextRight known s) ∨
  (∃ before x after err, e = .error err ∧ o = none ∧ ss = before ++ x :: after ∧ (∀ s ∈ before, TextRight known s) ∧
    TextWrong known x err)

theorem fragsOutE_eq (args : Args) (s : Str) : ∀ fs : List Fragment,
    (∃ r, fragsOutE args s fs = .ok r ∧ fragsOut args fs = some r) ∨
    (fragsOutE args s fs = .error (.missing s) ∧ fragsOut args fs = none)
  | [] => .inl ⟨_, rfl, rfl⟩
  | .literal l :: fs => by
    rcases fragsOutE_eq args s fs with ⟨⟨o, u⟩, h1, h2⟩ | ⟨h1, h2⟩
    · exact .inl ⟨(.str l :: o, u), by simp [fragsOutE, h1], by simp [fragsOut, h2]⟩
    · exact .inr ⟨by simp [fragsOutE, h1], by simp [fragsOut, h2]⟩
  | .interpolation n :: fs => by
    cases hg : args.get n with
    | none => exact .inr ⟨by simp [fragsOutE, hg], by simp [fragsOut, hg]⟩
    | some e =>
      rcases fragsOutE_eq args s fs with ⟨⟨o, u⟩, h1, h2⟩ | ⟨h1, h2⟩
      · exact .inl ⟨(.arg n e :: o, n :: u), by simp [fragsOutE, h1, hg], by simp [fragsOut, h2, hg]⟩
      · exact .inr ⟨by simp [fragsOutE, h1, hg], by simp [fragsOut, h2, hg]⟩

theorem agree_str (args : Args) (s : Str) : Agree (names args) (strOutE args s) [s] (strOut args s) := by
  cases hp : parseFragments s with
  | none =>
    refine .inr ⟨[], s, [], .text s, by simp [strOutE, hp], by simp [strOut, hp], rfl, by simp, .text ?_⟩
    rw [splits_iff, hp]; simp
  | some fs =>
    rcases fragsOutE_eq args s fs with ⟨r, h1, h2⟩ | ⟨h1, h2⟩
    · refine .inl ⟨r, by simp [strOutE, hp, h1], by simp [strOut, hp, h2], ?_⟩
      have := (strOut_isSome args s).1 ⟨r, by simp [strOut, hp, h2]⟩
      intro x hx
      simp only [List.mem_singleton] at hx
      subst hx
      exact this
    · refine .inr ⟨[], s, [], .missing s, by simp [strOutE, hp, h1], by simp [strOut, hp, h2], rfl, by simp, ?_⟩
      have hno : ¬ TextOk args s := by
        intro h
        obtain ⟨x, hx⟩ := (strOut_isSome args s).2 h
        simp [strOut, hp, h2] at hx
      have : ¬ ∀ n, Mentions s n → n ∈ names args := fun h => hno ⟨(splits_iff s).2 ⟨fs, hp⟩, h⟩
      simp only [Classical.not_forall] at this
      obtain ⟨n, h3, h4⟩ := this
      exact .missing n h3 h4

theorem agree_both {α β γ : Type} {known : List Str} {f : α → β → γ} {a : Except LErr (α × List Str)}
    {b : Except LErr (β × List Str)} {oa : Option (α × List Str)} {ob : Option (β × List Str)} {sa sb : List Str}
    {o : Option (γ × List Str)} (h0 : oa = none → o = none) (h0' : ob = none → o = none)
    (h00 : ∀ x u y v, oa = some (x, u) → ob = some (y, v) → o = some (f x y, u ++ v))
    (ha : Agree known a sa oa) (hb : Agree known b sb ob) : Agree known (both f a b) (sa ++ sb) o := by
  rcases ha with ⟨⟨x, u⟩, rfl, rfl, h1⟩ | ⟨p, x, q, err, rfl, rfl, rfl, h1, h2⟩
  · rcases hb with ⟨⟨y, v⟩, rfl, rfl, h2⟩ | ⟨p, y, q, err, rfl, rfl, rfl, h2, h3⟩
    · refine .inl ⟨_, rfl, h00 _ _ _ _ rfl rfl, ?_⟩
      intro s hs
      rcases List.mem_append.1 hs with hs | hs
      · exact h1 s hs
      · exact h2 s hs
    · refine .inr ⟨sa ++ p, y, q, err, rfl, h0' rfl, by simp, ?_, h3⟩
      intro s hs
      rcases List.mem_append.1 hs with hs | hs
      · exact h1 s hs
      · exact h2 s hs
  · exact .inr ⟨p, x, q ++ sb, err, rfl, h0 rfl, by simp, h1, h2⟩

theorem agree_nil {α : Type} (known : List Str) (r : α) : Agree known (.ok (r, [])) [] (some (r, [])) :=
  .inl ⟨_, rfl, rfl, by simp⟩

theorem agree_strs (args : Args) : ∀ ss : List Str, Agree (names args) (strsOutE args ss) ss (strsOut args ss)
  | [] => agree_nil _ _
  | s :: ss => by
    rw [strsOutE, strsOut]
    exact agree_both (fun h => by simp only [h]) (fun h => by simp only [h]; split <;> simp_all) (fun _ _ _ _ h h' => by simp only [h, h'])
      (agree_str args s) (agree_strs args ss)

theorem agree_sels (args : Args) : ∀ ss : List Selector,
    Agree (names args) (selsOutE args ss) ss.flatten (selsOut args ss)
  | [] => agree_nil _ _
  | s :: ss => by
    rw [selsOutE, selsOut]
    exact agree_both (fun h => by simp only [h]) (fun h => by simp only [h]; split <;> simp_all) (fun _ _ _ _ h h' => by simp only [h, h'])
      (agree_strs args s) (agree_sels args ss)

mutual
theorem agree_rbc (args : Args) : ∀ x : RBC, Agree (names args) (rbcOutE args x) (textsRBC x) (rbcOut args x)
  | .rule c b => by
    rw [rbcOutE, rbcOut, textsRBC]
    exact agree_both (fun h => by simp only [h]) (fun h => by simp only [h]; split <;> simp_all) (fun _ _ _ _ h h' => by simp only [h, h'])
      (agree_strs args c) (agree_rbcs args b)
  | .block c b => by
    rw [rbcOutE, rbcOut, textsRBC]
    exact agree_both (fun h => by simp only [h]) (fun h => by simp only [h]; split <;> simp_all) (fun _ _ _ _ h h' => by simp only [h, h'])
      (agree_sels args c) (agree_rbcs args b)
  | .attr k v => by
    rw [rbcOutE, rbcOut, textsRBC]
    rcases agree_strs args v with ⟨⟨x, u⟩, h1, h2, h3⟩ | ⟨p, x, q, err, h1, h2, h3, h4, h5⟩
    · rw [h1, h2]; exact .inl ⟨_, rfl, rfl, h3⟩
    · rw [h1, h2]; exact .inr ⟨p, x, q, err, rfl, rfl, h3, h4, h5⟩
theorem agree_rbcs (args : Args) : ∀ xs : List RBC, Agree (names args) (rbcsOutE args xs) (textsRBCs xs) (rbcsOut args xs)
  | [] => by rw [rbcsOutE, rbcsOut, textsRBCs]; exact agree_nil _ _
  | x :: xs => by
    rw [rbcsOutE, rbcsOut, textsRBCs]
    exact agree_both (fun h => by simp only [h]) (fun h => by simp only [h]; split <;> simp_all) (fun _ _ _ _ h h' => by simp only [h, h'])
      (agree_rbc args x) (agree_rbcs args xs)
end

theorem agree_scope (args : Args) : ∀ x : ScopeContent,
    Agree (names args) (scopeOutE args x) (textsRBC x.toRBC) (scopeOut args x)
  | .block c b => by
    rw [scopeOutE, scopeOut, ScopeContent.toRBC, textsRBC]
    exact agree_both (fun h => by simp only [h]) (fun h => by simp only [h]; split <;> simp_all) (fun _ _ _ _ h h' => by simp only [h, h'])
      (agree_sels args c) (agree_rbcs args b)
  | .rule c b => by
    rw [scopeOutE, scopeOut, ScopeContent.toRBC, textsRBC]
    exact agree_both (fun h => by simp only [h]) (fun h => by simp only [h]; split <;> simp_all) (fun _ _ _ _ h h' => by simp only [h, h'])
      (agree_strs args c) (agree_rbcs args b)

theorem agree_sheet (args : Args) : ∀ s : Sheet, Agree (names args) (sheetOutE args s) (texts s) (sheetOut args s)
  | [] => agree_nil _ _
  | x :: xs => by
    have : texts (x :: xs) = textsRBC x.toRBC ++ texts xs := by cases x <;> simp [texts, ScopeContent.toRBC, textsRBC]
    rw [sheetOutE, sheetOut, this]
    exact agree_both (fun h => by simp only [h]) (fun h => by simp only [h]; split <;> simp_all) (fun _ _ _ _ h h' => by simp only [h, h'])
      (agree_scope args x) (agree_sheet args xs)

/-- The first mistake in a list of texts is unique. -/
theorem firstWrong_unique {known : List Str} : ∀ {b b' : List Str} {x x' : Str} {a a' : List Str} {err err' : LErr},
    b ++ x :: a = b' ++ x' :: a' → (∀ s ∈ b, TextRight known s) → (∀ s ∈ b', TextRight known s) →
    TextWrong known x err → TextWrong known x' err' → err = err' := by
  have hno : ∀ {x : Str} {err : LErr}, TextWrong known x err → ¬ TextRight known x := by
    intro x err h hr
    cases h with
    | text h => exact h hr.1
    | missing n h1 h2 => exact h2 (hr.2 n h1)
  have one : ∀ {x : Str} {err err' : LErr}, TextWrong known x err → TextWrong known x err' → err = err' := by
    intro x err err' h h'
    cases h with
    | text h =>
      cases h' with
      | text => rfl
      | missing n h1 h2 => obtain ⟨ps, -, -, h3, -⟩ := h1; exact absurd ⟨ps, h3⟩ h
    | missing n h1 h2 =>
      cases h' with
      | text h => obtain ⟨ps, -, -, h3, -⟩ := h1; exact absurd ⟨ps, h3⟩ h
      | missing => rfl
  intro b
  induction b with
  | nil =>
    intro b' x x' a a' err err' h _ h2 h3 h4
    cases b' with
    | nil => simp only [List.nil_append, List.cons.injEq] at h; obtain ⟨rfl, -⟩ := h; exact one h3 h4
    | cons y b' =>
      simp only [List.nil_append, List.cons_append, List.cons.injEq] at h
      obtain ⟨rfl, -⟩ := h
      exact absurd (h2 x (by simp)) (hno h3)
  | cons y b ih =>
    intro b' x x' a a' err err' h h1 h2 h3 h4
    cases b' with
    | nil =>
      simp only [List.nil_append, List.cons_append, List.cons.injEq] at h
      obtain ⟨rfl, -⟩ := h
      exact absurd (h1 y (by simp)) (hno h4)
    | cons y' b' =>
      simp only [List.cons_append, List.cons.injEq] at h
      exact ih h.2 (fun s hs => h1 s (by simp [hs])) (fun s hs => h2 s (by simp [hs])) h3 h4

theorem textWrong_not {known : List Str} {x : Str} {err : LErr} (h : TextWrong known x err) : ¬ TextRight known x := by
  intro hr
  cases h with
  | text h => exact h hr.1
  | missing n h1 h2 => exact h2 (hr.2 n h1)

theorem report_ok {s : Str} {sheet : Sheet} : Report.parse s = .ok sheet ↔ Css.parse s = some sheet := by
  rw [← Report.sheet_ok]
  unfold Report.parse
  cases Report.sheet s <;> simp

/-- The errors of the whole macro. -/
theorem macroFnE_error (order : Args → Args) (ts : List Tree) (err : LErr) :
    macroFnE order ts = .error err ↔ CallWrong order ts err := by
  by_cases hlit : ∃ text s rest, ts = .lit text (some s) :: rest
  · obtain ⟨text, s, rest, rfl⟩ := hlit
    simp only [macroFnE]
    cases hr : Report.parse s with
    | error e =>
      have hnone : ∀ sheet, Css.parse s ≠ some sheet := by
        intro sheet h
        rw [report_ok.2 h] at hr; cases hr
      constructor
      · intro h; cases h; exact .css _ _ _ e.1 e.2 hr
      · intro h
        cases h with
        | notString _ _ h => exact absurd rfl (h text s)
        | css _ _ _ places message h => rw [hr] at h; cases h; rfl
        | comma _ _ rest sheet t h => exact absurd h (hnone sheet)
        | args _ _ _ sheet _ h => exact absurd h (hnone sheet)
        | text _ _ _ sheet args b x a _ h => exact absurd h (hnone sheet)
        | unused _ _ _ sheet args b x a h => exact absurd h (hnone sheet)
    | ok sheet =>
      have hp := report_ok.1 hr
      simp only
      cases ha : parseArgsE rest with
      | error e =>
        have hno : ∀ args, ¬ (ArgTokens rest args ∧ (names args).Nodup) := by
          intro args h
          rw [parseArgsE_ok.2 h] at ha; cases ha
        constructor
        · intro h
          cases h
          rcases parseArgsE_error.1 ha with ⟨t, rest', rfl, h1, rfl⟩ | h
          · exact .comma _ _ _ sheet t hp h1
          · exact .args _ _ _ sheet _ hp h
        · intro h
          cases h with
          | notString _ _ h => exact absurd rfl (h text s)
          | css _ _ _ places message h => rw [hr] at h; cases h
          | comma _ _ rest sheet t h h1 => rw [← ha, parseArgsE_error.2 (.inl ⟨t, rest, rfl, h1, rfl⟩)]
          | args _ _ _ sheet _ h h1 => rw [← ha, parseArgsE_error.2 (.inr h1)]
          | text _ _ _ sheet args b x a _ h h1 h2 => exact absurd ⟨h1, h2⟩ (hno args)
          | unused _ _ _ sheet args b x a h h1 h2 => exact absurd ⟨h1, h2⟩ (hno args)
      | ok args =>
        obtain ⟨h1, h2⟩ := parseArgsE_ok.1 ha
        have hsame : ∀ {sheet'}, Css.parse s = some sheet' → sheet' = sheet := by
          intro sheet' h; rw [hp] at h; cases h; rfl
        have hargs : ∀ {args'}, ArgTokens rest args' → (names args').Nodup → args' = args := by
          intro args' h3 h4
          rw [parseArgsE_ok.2 ⟨h3, h4⟩] at ha; cases ha; rfl
        have hwell : ∀ {err'}, parseArgsE rest ≠ .error err' := by intro err' h; rw [ha] at h; cases h
        simp only
        rcases agree_sheet args sheet with ⟨⟨out, used⟩, e1, e2, e3⟩ | ⟨b, x, a, err', e1, e2, e3, e4, e5⟩
        · rw [e1]
          have hused := (sheetOut_spec sheet e2).2
          have hnot : ∀ {err'}, (CallWrong order (.lit text (some s) :: rest) err') →
              ∃ before a after, order args = before ++ a :: after ∧ (∀ b ∈ before, ∃ x ∈ texts sheet, Mentions x b.1) ∧
                (∀ x ∈ texts sheet, ¬ Mentions x a.1) ∧ err' = .unused a.1 := by
            intro err' h
            cases h with
            | notString _ _ h => exact absurd rfl (h text s)
            | css _ _ _ places message h => rw [hr] at h; cases h
            | comma _ _ rest sheet t h h3 => exact absurd (parseArgsE_error.2 (.inl ⟨t, rest, rfl, h3, rfl⟩)) hwell
            | args _ _ _ sheet _ h h3 => exact absurd (parseArgsE_error.2 (.inr h3)) hwell
            | text _ _ _ sheet args b x a _ h h1 h2 h3 h4 h5 =>
              cases hsame h
              cases hargs h1 h2
              exact absurd (e3 x (by rw [h3]; simp)) (textWrong_not h5)
            | unused _ _ _ sheet args b x a h h1 h2 h3 h4 h5 h6 =>
              cases hsame h
              cases hargs h1 h2
              exact ⟨b, x, a, h4, h5, h6, rfl⟩
          simp only
          cases hf : (order args).find? (fun a => !used.elem a.1) with
          | none =>
            simp only [reduceCtorEq, false_iff]
            intro h
            obtain ⟨b, x, a, h4, h5, h6, -⟩ := hnot h
            rw [List.find?_eq_none] at hf
            have := hf x (by rw [h4]; simp)
            simp only [Bool.not_eq_eq_eq_not, Bool.not_true, Bool.not_eq_false, List.elem_eq_mem, decide_eq_true_eq,
              hused] at this
            obtain ⟨y, h7, h8⟩ := this
            exact h6 y h7 h8
          | some a0 =>
            obtain ⟨g1, bef, aft, g2, g3⟩ := List.find?_eq_some_iff_append.1 hf
            simp only [Bool.not_eq_eq_eq_not, Bool.not_true, List.elem_eq_mem, decide_eq_false_iff_not, hused] at g1
            have g3' : ∀ b ∈ bef, ∃ x ∈ texts sheet, Mentions x b.1 := by
              intro b hb
              have := g3 b hb
              simpa [hused] using this
            constructor
            · intro h
              cases h
              exact .unused _ _ _ sheet args bef a0 aft hp h1 h2 e3 g2 g3' (fun x hx hm => g1 ⟨x, hx, hm⟩)
            · intro h
              obtain ⟨b, x, a, h4, h5, h6, rfl⟩ := hnot h
              congr 1
              congr 1
              have : (order args).find? (fun a => !used.elem a.1) = some x := by
                rw [List.find?_eq_some_iff_append]
                refine ⟨?_, b, a, h4, ?_⟩
                · simp only [Bool.not_eq_eq_eq_not, Bool.not_true, List.elem_eq_mem, decide_eq_false_iff_not, hused]
                  rintro ⟨y, h7, h8⟩
                  exact h6 y h7 h8
                · intro b' hb'
                  have := h5 b' hb'
                  simpa [hused] using this
              rw [hf] at this
              cases this
              rfl
        · rw [e1]
          simp only [Except.error.injEq]
          constructor
          · rintro rfl
            exact .text _ _ _ sheet args b x a _ hp h1 h2 e3 e4 e5
          · intro h
            cases h with
            | notString _ _ h => exact absurd rfl (h text s)
            | css _ _ _ places message h => rw [hr] at h; cases h
            | comma _ _ rest sheet t h h3 => exact absurd (parseArgsE_error.2 (.inl ⟨t, rest, rfl, h3, rfl⟩)) hwell
            | args _ _ _ sheet _ h h3 => exact absurd (parseArgsE_error.2 (.inr h3)) hwell
            | text _ _ _ sheet' args' b' x' a' _ h h1 h2 h3 h4 h5 =>
              cases hsame h
              cases hargs h1 h2
              rw [e3] at h3
              exact firstWrong_unique h3 e4 h4 e5 h5
            | unused _ _ _ sheet args b' x' a' h h1 h2 h3 h4 h5 h6 =>
              cases hsame h
              cases hargs h1 h2
              exact absurd (h3 x (by rw [e3]; simp)) (textWrong_not e5)
  · cases ts with
    | nil =>
      simp only [macroFnE]
      constructor
      · intro h; cases h; exact .noArgument
      · intro h; cases h; rfl
    | cons t rest =>
      have ht : ∀ text s, t ≠ .lit text (some s) := fun text s h => hlit ⟨text, s, rest, by rw [h]⟩
      have : macroFnE order (t :: rest) = .error (.notString t) := by
        cases t with
        | lit text v =>
          cases v with
          | none => rfl
          | some s => exact absurd rfl (ht text s)
        | ident => rfl
        | punct => rfl
        | group => rfl
      rw [this]
      constructor
      · intro h; cases h; exact .notString t rest ht
      · intro h
        cases h with
        | notString => rfl
        | css => exact absurd rfl (ht _ _)
        | comma => exact absurd rfl (ht _ _)
        | args => exact absurd rfl (ht _ _)
        | text => exact absurd rfl (ht _ _)
        | unused => exact absurd rfl (ht _ _)

/-- Without an error, the code is that of `macroFn`. -/
theorem macroFnE_ok (order : Args → Args) (hord : ∀ args, ∀ a, a ∈ order args ↔ a ∈ args) (ts : List Tree) (c : CSheet) :
    macroFnE order ts = .ok c ↔ macroFn ts = some c := by
  by_cases hlit : ∃ text s rest, ts = .lit text (some s) :: rest
  · obtain ⟨text, s, rest, rfl⟩ := hlit
    simp only [macroFnE, macroFn]
    cases hr : Report.parse s with
    | error e =>
      cases hp : Css.parse s with
      | none => simp
      | some sheet => rw [report_ok.2 hp] at hr; cases hr
    | ok sheet =>
      rw [report_ok.1 hr]
      simp only
      cases ha : parseArgsE rest with
      | error e =>
        cases hp : parseArgs rest with
        | none => simp
        | some args => rw [parseArgsE_ok.2 (parseArgs_iff.1 hp)] at ha; cases ha
      | ok args =>
        rw [parseArgs_iff.2 (parseArgsE_ok.1 ha)]
        simp only
        rcases agree_sheet args sheet with ⟨⟨out, used⟩, e1, e2, -⟩ | ⟨b, x, a, err, e1, e2, -⟩
        · rw [e1, e2]
          simp only
          cases hf : (order args).find? (fun a => !used.elem a.1) with
          | none =>
            rw [List.find?_eq_none] at hf
            rw [if_pos]
            · simp
            · rw [List.all_eq_true]
              intro a h
              have := hf a ((hord args a).2 h)
              simpa using this
          | some a =>
            rw [if_neg]
            · simp
            · rw [List.all_eq_true]
              intro h
              have h1 := List.find?_some hf
              have h2 := h a ((hord args a).1 (List.mem_of_find?_eq_some hf))
              rw [h2] at h1
              cases h1
        · rw [e1, e2]; simp
  · cases ts with
    | nil => simp [macroFnE, macroFn]
    | cons t rest =>
      cases t with
      | lit text v =>
        cases v with
        | none => simp [macroFnE, macroFn]
        | some s => exact absurd ⟨text, s, rest, rfl⟩ hlit
      | ident => simp [macroFnE, macroFn]
      | punct => simp [macroFnE, macroFn]
      | group => simp [macroFnE, macroFn]

end Literal
