import Verif.Proofs.Fstring
import Verif.Proofs.Output

/-! # The macro with a string literal -/

namespace Literal
open Spec Output Storage

/-! ## Arguments -/

theorem notComma_iff (t : Tree) : NotComma t ↔ isPunct ',' t = false := by
  cases t <;> simp [NotComma, isPunct]

theorem argTokens_plain : ∀ e : List Tree, (∀ t ∈ e, NotComma t) → argTokens e = (e, none)
  | [], _ => rfl
  | t :: e, h => by
    simp only [argTokens, (notComma_iff t).1 (h t (by simp)), Bool.false_eq_true, if_false,
      argTokens_plain e (fun u hu => h u (by simp [hu]))]

theorem argTokens_comma (j : Bool) (r : List Tree) : ∀ e : List Tree, (∀ t ∈ e, NotComma t) →
    argTokens (e ++ .punct ',' j :: r) = (e, some r)
  | [], _ => by simp [argTokens, isPunct]
  | t :: e, h => by
    simp only [List.cons_append, argTokens, (notComma_iff t).1 (h t (by simp)), Bool.false_eq_true, if_false,
      argTokens_comma j r e (fun u hu => h u (by simp [hu]))]

theorem argTokens_spec : ∀ ts : List Tree, (∀ t ∈ (argTokens ts).1, NotComma t) ∧
    (((argTokens ts).2 = none ∧ ts = (argTokens ts).1) ∨
      ∃ j r, (argTokens ts).2 = some r ∧ ts = (argTokens ts).1 ++ .punct ',' j :: r)
  | [] => ⟨by simp [argTokens], .inl ⟨rfl, rfl⟩⟩
  | t :: ts => by
    cases hc : isPunct ',' t with
    | true =>
      have he : argTokens (t :: ts) = ([], some ts) := by simp [argTokens, hc]
      rw [he]
      refine ⟨by simp, .inr ?_⟩
      cases t with
      | punct c j =>
        simp only [isPunct, beq_iff_eq] at hc
        subst hc
        exact ⟨j, ts, rfl, rfl⟩
      | ident => simp [isPunct] at hc
      | lit => simp [isPunct] at hc
      | group => simp [isPunct] at hc
    | false =>
      have he : argTokens (t :: ts) = (t :: (argTokens ts).1, (argTokens ts).2) := by simp [argTokens, hc]
      obtain ⟨h1, h2⟩ := argTokens_spec ts
      rw [he]
      refine ⟨?_, ?_⟩
      · intro u hu
        rcases List.mem_cons.1 hu with rfl | hu
        · exact (notComma_iff _).2 hc
        · exact h1 u hu
      · rcases h2 with ⟨h3, h4⟩ | ⟨j, r, h3, h4⟩
        · exact .inl ⟨h3, by simp only; rw [← h4]⟩
        · exact .inr ⟨j, r, h3, by simp only [List.cons_append]; rw [← h4]⟩

/-- Names of arguments. -/
abbrev names (args : Args) : List Str := args.map Prod.fst

theorem insert_some {args args' : Args} {n : Str} {e : RExpr} :
    args.insert n e = some args' ↔ n ∉ names args ∧ args' = args ++ [(n, e)] := by
  have hm : (∃ a ∈ args, a.1 = n) ↔ n ∈ names args := by simp [names]
  unfold Args.insert
  by_cases h : args.any (fun a => a.1 = n) = true
  · rw [if_pos h]
    simp only [List.any_eq_true, decide_eq_true_eq, hm] at h
    simp [h]
  · rw [if_neg h]
    simp only [List.any_eq_true, decide_eq_true_eq, hm] at h
    simp [h, eq_comm]

theorem identText_eq (name : Str) (raw : Bool) : identText name raw = nameText name raw := by
  cases raw <;> rfl

theorem argLoop_sound : ∀ (n : Nat) (ts : List Tree) (acc args : Args), argLoop n ts acc = some args →
    (names acc).Nodup →
    ∃ new, args = acc ++ new ∧ (∀ j, ArgTokens (.punct ',' j :: ts) new) ∧ (names args).Nodup
  | 0, _, _, _, h, _ => by simp [argLoop] at h
  | n + 1, [], acc, args, h, hn => by
    simp only [argLoop, Option.some.injEq] at h
    subst h
    exact ⟨[], by simp, fun j => .trailing j, hn⟩
  | n + 1, [t0], acc, args, h, hn => by
    cases t0 <;> simp [argLoop] at h
  | n + 1, .punct _ _ :: t :: ts, acc, args, h, hn => by simp [argLoop] at h
  | n + 1, .lit _ _ :: t :: ts, acc, args, h, hn => by simp [argLoop] at h
  | n + 1, .group _ _ :: t :: ts, acc, args, h, hn => by simp [argLoop] at h
  | n + 1, .ident name raw :: t :: ts, acc, args, h, hn => by
      simp only [argLoop, identText_eq] at h
      split at h
      · rename_i heq
        obtain ⟨j', rfl⟩ : ∃ j', t = .punct '=' j' := by
          cases t with
          | punct c j => simp only [isPunct, beq_iff_eq] at heq; subst heq; exact ⟨j, rfl⟩
          | ident => simp [isPunct] at heq
          | lit => simp [isPunct] at heq
          | group => simp [isPunct] at heq
        obtain ⟨hnc, hs⟩ := argTokens_spec ts
        have step : ∀ acc', acc.insert (nameText name raw) (argTokens ts).1 = some acc' →
            acc' = acc ++ [(nameText name raw, (argTokens ts).1)] ∧ (names acc').Nodup := by
          intro acc' hi
          obtain ⟨h1, rfl⟩ := insert_some.1 hi
          refine ⟨rfl, ?_⟩
          simp only [names, List.map_append, List.map_cons, List.map_nil, List.nodup_append]
          refine ⟨hn, by simp, ?_⟩
          intro a ha b hb
          simp only [List.mem_singleton] at hb
          subst hb
          rintro rfl
          exact h1 ha
        rcases hs with ⟨h3, h4⟩ | ⟨j2, r, h3, h4⟩
        · have he : argTokens ts = ((argTokens ts).1, none) := Prod.ext rfl h3
          rw [he] at h
          simp only at h
          obtain ⟨rfl, hnd⟩ := step _ h
          refine ⟨[(nameText name raw, (argTokens ts).1)], rfl, fun j => ?_, hnd⟩
          have := ArgTokens.more j name raw j' (argTokens ts).1 [] [] hnc .done
          rw [List.append_nil] at this
          rw [h4.symm] at this ⊢
          exact this
        · have he : argTokens ts = ((argTokens ts).1, some r) := Prod.ext rfl h3
          rw [he] at h
          simp only at h
          cases hi : acc.insert (nameText name raw) (argTokens ts).1 with
          | none => rw [hi] at h; cases h
          | some acc' =>
            rw [hi] at h
            simp only at h
            obtain ⟨rfl, hnd⟩ := step _ hi
            obtain ⟨new, rfl, hat, hnd'⟩ := argLoop_sound n r _ args h hnd
            refine ⟨(nameText name raw, (argTokens ts).1) :: new, by simp, fun j => ?_, hnd'⟩
            have := ArgTokens.more j name raw j' (argTokens ts).1 _ _ hnc (hat j2)
            rw [← h4] at this
            exact this
      · cases h

theorem argLoop_complete : ∀ (n : Nat) (ts : List Tree) (j : Bool) (acc new : Args),
    ArgTokens (.punct ',' j :: ts) new → (names (acc ++ new)).Nodup → ts.length < n →
    argLoop n ts acc = some (acc ++ new)
  | 0, _, _, _, _, _, _, h => by omega
  | n + 1, ts, j, acc, new, h, hn, hl => by
    cases h with
    | trailing => simp [argLoop]
    | more _ name raw j' e rest args hnc hrest =>
      have hfresh : nameText name raw ∉ names acc := by
        intro hm
        simp only [names, List.map_append, List.map_cons, List.nodup_append] at hn
        exact hn.2.2 _ hm _ (by simp) rfl
      have hins : acc.insert (nameText name raw) e = some (acc ++ [(nameText name raw, e)]) :=
        insert_some.2 ⟨hfresh, rfl⟩
      have heq : isPunct '=' (.punct '=' j') = true := by simp [isPunct]
      have fin : ∀ (j2 : Bool) (r : List Tree), rest = .punct ',' j2 :: r →
          argLoop (n + 1) (.ident name raw :: .punct '=' j' :: (e ++ rest)) acc =
            some (acc ++ (nameText name raw, e) :: args) := by
        intro j2 r hr
        subst hr
        simp only [argLoop, identText_eq, heq, if_true, argTokens_comma j2 r e hnc, hins]
        have := argLoop_complete n r j2 (acc ++ [(nameText name raw, e)]) args hrest
          (by simpa using hn) (by simp only [List.length_cons, List.length_append] at hl; omega)
        rw [this]
        simp
      cases hrest with
      | done =>
        simp only [List.append_nil, argLoop, identText_eq, heq, if_true, argTokens_plain e hnc, hins]
      | trailing j2 => exact fin j2 [] rfl
      | more j2 _ _ _ _ _ _ _ _ => exact fin j2 _ rfl

theorem parseArgs_iff {ts : List Tree} {args : Args} :
    parseArgs ts = some args ↔ ArgTokens ts args ∧ (names args).Nodup := by
  constructor
  · intro h
    cases ts with
    | nil =>
      simp only [parseArgs, Option.some.injEq] at h
      subst h
      exact ⟨.done, by simp⟩
    | cons t ts =>
      simp only [parseArgs] at h
      split at h
      · rename_i hc
        obtain ⟨j, rfl⟩ : ∃ j, t = .punct ',' j := by
          cases t with
          | punct c j => simp only [isPunct, beq_iff_eq] at hc; subst hc; exact ⟨j, rfl⟩
          | ident => simp [isPunct] at hc
          | lit => simp [isPunct] at hc
          | group => simp [isPunct] at hc
        obtain ⟨new, rfl, h1, h2⟩ := argLoop_sound _ _ _ _ h (by simp)
        exact ⟨by simpa using h1 j, h2⟩
      · cases h
  · rintro ⟨h, hn⟩
    have main : ∀ j ts', ts = .punct ',' j :: ts' → parseArgs ts = some args := by
      intro j ts' he
      subst he
      have hc : isPunct ',' (.punct ',' j) = true := by simp [isPunct]
      simp only [parseArgs, hc, if_true]
      have := argLoop_complete (ts'.length + 1) ts' j [] args h (by simpa using hn) (by omega)
      simpa using this
    cases h with
    | done => rfl
    | trailing j => exact main j [] rfl
    | more j _ _ _ _ _ _ _ _ => exact main j _ rfl

theorem get_eq : ∀ (args : Args) (n : Str), args.get n = args.lookup n
  | [], n => rfl
  | (a, e) :: args, n => by
    have ih := get_eq args n
    unfold Args.get at ih ⊢
    by_cases h : a = n
    · subst h
      simp [List.find?, List.lookup]
    · have h' : (n == a) = false := by simp [Ne.symm h]
      simp only [List.find?, h, decide_false, List.lookup, h', ih]

theorem lookup_isSome (args : Args) (n : Str) : (args.lookup n).isSome = true ↔ n ∈ names args := by
  induction args with
  | nil => simp
  | cons a args ih =>
    obtain ⟨k, e⟩ := a
    by_cases h : n = k
    · subst h; simp [List.lookup]
    · have h' : (n == k) = false := by simp [h]
      simp [List.lookup, h', ih, h]

/-! ## Fragments -/

theorem fragsOut_value (args : Args) (ρ : Env) : ∀ (fs : List Fragment) (out : List OFrag) (used : List Str),
    fragsOut args fs = some (out, used) → fragsValue (argText args ρ) fs = some (fragsText ρ out)
  | [], out, used, h => by simp only [fragsOut, Option.some.injEq, Prod.mk.injEq] at h; rw [← h.1]; rfl
  | .literal s :: fs, out, used, h => by
    simp only [fragsOut] at h
    split at h
    · cases h
    · rename_i o u ho
      simp only [Option.some.injEq, Prod.mk.injEq] at h
      rw [← h.1, fragsValue, fragsOut_value args ρ fs o u ho]
      rfl
  | .interpolation n :: fs, out, used, h => by
    simp only [fragsOut] at h
    split at h
    · cases h
    · rename_i e he
      split at h
      · cases h
      · rename_i o u ho
        simp only [Option.some.injEq, Prod.mk.injEq] at h
        rw [get_eq] at he
        rw [← h.1, fragsValue, fragsOut_value args ρ fs o u ho, argText, he]
        rfl

theorem fragsOut_used (args : Args) (n : Str) : ∀ (fs : List Fragment) (out : List OFrag) (used : List Str),
    fragsOut args fs = some (out, used) → (n ∈ used ↔ .interpolation n ∈ fs)
  | [], out, used, h => by simp only [fragsOut, Option.some.injEq, Prod.mk.injEq] at h; rw [← h.2]; simp
  | .literal s :: fs, out, used, h => by
    simp only [fragsOut] at h
    split at h
    · cases h
    · rename_i o u ho
      simp only [Option.some.injEq, Prod.mk.injEq] at h
      rw [← h.2, fragsOut_used args n fs o u ho]; simp
  | .interpolation m :: fs, out, used, h => by
    simp only [fragsOut] at h
    split at h
    · cases h
    · split at h
      · cases h
      · rename_i o u ho
        simp only [Option.some.injEq, Prod.mk.injEq] at h
        rw [← h.2, List.mem_cons, fragsOut_used args n fs o u ho]; simp

theorem fragsOut_isSome (args : Args) : ∀ fs : List Fragment,
    (∃ x, fragsOut args fs = some x) ↔ ∀ n, .interpolation n ∈ fs → n ∈ names args
  | [] => by simp [fragsOut]
  | .literal s :: fs => by
    have ih := fragsOut_isSome args fs
    simp only [List.mem_cons, reduceCtorEq, false_or]
    rw [← ih]
    simp only [fragsOut]
    cases fragsOut args fs <;> simp
  | .interpolation m :: fs => by
    have ih := fragsOut_isSome args fs
    simp only [List.mem_cons, Fragment.interpolation.injEq]
    have hm : (args.get m).isSome = true ↔ m ∈ names args := by rw [get_eq]; exact lookup_isSome args m
    constructor
    · rintro ⟨x, hx⟩ n hn
      simp only [fragsOut] at hx
      split at hx
      · cases hx
      · rename_i e he
        split at hx
        · cases hx
        · rename_i o u ho
          rcases hn with rfl | hn
          · exact hm.1 (by rw [he]; rfl)
          · exact ih.1 ⟨_, ho⟩ n hn
    · intro h
      obtain ⟨e, he⟩ := Option.isSome_iff_exists.1 (hm.2 (h m (.inl rfl)))
      obtain ⟨⟨o, u⟩, ho⟩ := ih.2 (fun n hn => h n (.inr hn))
      exact ⟨(.arg m e :: o, m :: u), by simp only [fragsOut, he, ho]⟩

/-- A text is acceptable. -/
def TextOk (args : Args) (s : Str) : Prop := (∃ ps, Pieces s ps) ∧ ∀ n, Mentions s n → n ∈ names args

theorem splits_iff (s : Str) : (∃ ps, Pieces s ps) ↔ ∃ fs, parseFragments s = some fs := by
  constructor
  · rintro ⟨ps, h⟩; exact ⟨_, parse_merge h⟩
  · rintro ⟨fs, h⟩
    obtain ⟨ps, hp, _⟩ := parseFragments_iff.1 h
    exact ⟨ps, hp⟩

theorem strOut_isSome (args : Args) (s : Str) : (∃ x, strOut args s = some x) ↔ TextOk args s := by
  unfold TextOk
  rw [splits_iff]
  constructor
  · rintro ⟨x, h⟩
    unfold strOut at h
    split at h
    · cases h
    · rename_i fs hfs
      refine ⟨⟨fs, hfs⟩, ?_⟩
      intro n hn
      obtain ⟨fs', h1, h2⟩ := mentions_iff.1 hn
      rw [hfs] at h1; cases h1
      exact (fragsOut_isSome args fs).1 ⟨x, h⟩ n h2
  · rintro ⟨⟨fs, hfs⟩, h⟩
    obtain ⟨x, hx⟩ := (fragsOut_isSome args fs).2 (fun n hn => h n (mentions_iff.2 ⟨fs, hfs, hn⟩))
    exact ⟨x, by simp only [strOut, hfs, hx]⟩

theorem strOut_spec {args : Args} {s : Str} {out : List OFrag} {used : List Str}
    (h : strOut args s = some (out, used)) :
    (∀ ρ, Replaced (argText args ρ) s (fragsText ρ out)) ∧ ∀ n, n ∈ used ↔ Mentions s n := by
  unfold strOut at h
  split at h
  · cases h
  · rename_i fs hfs
    refine ⟨fun ρ => replaced_iff.2 ⟨fs, hfs, fragsOut_value args ρ fs out used h⟩, fun n => ?_⟩
    rw [fragsOut_used args n fs out used h, mentions_iff]
    simp [hfs]

theorem fragsText_append (ρ : Env) (a b : List OFrag) : fragsText ρ (a ++ b) = fragsText ρ a ++ fragsText ρ b := by
  simp [fragsText]

theorem strsOut_spec {args : Args} : ∀ {ss : List Str} {out : List OFrag} {used : List Str},
    strsOut args ss = some (out, used) →
    (∀ ρ, Replaced (argText args ρ) ss.flatten (fragsText ρ out)) ∧ ∀ n, n ∈ used ↔ ∃ s ∈ ss, Mentions s n
  | [], out, used, h => by
    simp only [strsOut, Option.some.injEq, Prod.mk.injEq] at h
    rw [← h.1, ← h.2]
    exact ⟨fun ρ => Replaced.nil _, fun n => by simp⟩
  | s :: ss, out, used, h => by
    simp only [strsOut] at h
    split at h
    · rename_i a u b v h1 h2
      simp only [Option.some.injEq, Prod.mk.injEq] at h
      obtain ⟨p1, p2⟩ := strOut_spec h1
      obtain ⟨q1, q2⟩ := strsOut_spec h2
      rw [← h.1, ← h.2]
      refine ⟨fun ρ => ?_, fun n => ?_⟩
      · rw [fragsText_append]; exact Replaced.append (p1 ρ) (q1 ρ)
      · rw [List.mem_append, p2, q2]; simp
    · cases h

theorem strsOut_isSome (args : Args) : ∀ ss : List Str,
    (∃ x, strsOut args ss = some x) ↔ ∀ s ∈ ss, TextOk args s
  | [] => by simp [strsOut]
  | s :: ss => by
    have ih := strsOut_isSome args ss
    have h0 := strOut_isSome args s
    simp only [List.mem_cons, forall_eq_or_imp, ← ih, ← h0, strsOut]
    constructor
    · rintro ⟨x, h⟩
      split at h
      · rename_i a u b v h1 h2; exact ⟨⟨_, h1⟩, ⟨_, h2⟩⟩
      · cases h
    · rintro ⟨⟨⟨a, u⟩, h1⟩, ⟨⟨b, v⟩, h2⟩⟩
      exact ⟨(a ++ b, u ++ v), by simp only [h1, h2]⟩

theorem selsOut_spec {args : Args} : ∀ {ss : List Selector} {out : List (List OFrag)} {used : List Str},
    selsOut args ss = some (out, used) →
    (∀ ρ, ReplacedSels (argText args ρ) ss (out.map (fun s => [fragsText ρ s]))) ∧
      ∀ n, n ∈ used ↔ ∃ s ∈ ss.flatten, Mentions s n
  | [], out, used, h => by
    simp only [selsOut, Option.some.injEq, Prod.mk.injEq] at h
    rw [← h.1, ← h.2]
    exact ⟨fun ρ => trivial, fun n => by simp⟩
  | s :: ss, out, used, h => by
    simp only [selsOut] at h
    split at h
    · rename_i a u b v h1 h2
      simp only [Option.some.injEq, Prod.mk.injEq] at h
      obtain ⟨p1, p2⟩ := strsOut_spec h1
      obtain ⟨q1, q2⟩ := selsOut_spec h2
      rw [← h.1, ← h.2]
      refine ⟨fun ρ => ⟨by simpa using p1 ρ, q1 ρ⟩, fun n => ?_⟩
      rw [List.mem_append, p2, q2]
      simp only [List.flatten_cons, List.mem_append, or_and_right, exists_or]
    · cases h

theorem selsOut_isSome (args : Args) : ∀ ss : List Selector,
    (∃ x, selsOut args ss = some x) ↔ ∀ s ∈ ss.flatten, TextOk args s
  | [] => by simp [selsOut]
  | s :: ss => by
    have ih := selsOut_isSome args ss
    have h0 := strsOut_isSome args s
    simp only [List.flatten_cons, List.mem_append, or_imp, forall_and, ← ih, ← h0, selsOut]
    constructor
    · rintro ⟨x, h⟩
      split at h
      · rename_i a u b v h1 h2; exact ⟨⟨_, h1⟩, ⟨_, h2⟩⟩
      · cases h
    · rintro ⟨⟨⟨a, u⟩, h1⟩, ⟨⟨b, v⟩, h2⟩⟩
      exact ⟨(a :: b, u ++ v), by simp only [h1, h2]⟩

mutual
theorem rbcOut_spec {args : Args} : ∀ (x : RBC) {out : ORBC} {used : List Str},
    rbcOut args x = some (out, used) →
    (∀ ρ, ReplacedRBC (argText args ρ) x (meaningRBC ρ out)) ∧
      ∀ n, n ∈ used ↔ ∃ s ∈ textsRBC x, Mentions s n
  | .rule c b, out, used, h => by
    simp only [rbcOut] at h
    split at h
    · rename_i c' u b' v h1 h2
      simp only [Option.some.injEq, Prod.mk.injEq] at h
      obtain ⟨p1, p2⟩ := strsOut_spec h1
      obtain ⟨q1, q2⟩ := rbcsOut_spec b h2
      rw [← h.1, ← h.2]
      refine ⟨fun ρ => ⟨by simpa using p1 ρ, q1 ρ⟩, fun n => ?_⟩
      rw [List.mem_append, p2, q2]
      simp only [textsRBC, List.mem_append, or_and_right, exists_or]
    · cases h
  | .block c b, out, used, h => by
    simp only [rbcOut] at h
    split at h
    · rename_i c' u b' v h1 h2
      simp only [Option.some.injEq, Prod.mk.injEq] at h
      obtain ⟨p1, p2⟩ := selsOut_spec h1
      obtain ⟨q1, q2⟩ := rbcsOut_spec b h2
      rw [← h.1, ← h.2]
      refine ⟨fun ρ => ⟨p1 ρ, q1 ρ⟩, fun n => ?_⟩
      rw [List.mem_append, p2, q2]
      simp only [textsRBC, List.mem_append, or_and_right, exists_or]
    · cases h
  | .attr k v, out, used, h => by
    simp only [rbcOut] at h
    split at h
    · rename_i c' u h1
      simp only [Option.some.injEq, Prod.mk.injEq] at h
      obtain ⟨p1, p2⟩ := strsOut_spec h1
      rw [← h.1, ← h.2]
      exact ⟨fun ρ => ⟨rfl, by simpa using p1 ρ⟩, fun n => by rw [p2]; rfl⟩
    · cases h
theorem rbcsOut_spec {args : Args} : ∀ (xs : List RBC) {out : List ORBC} {used : List Str},
    rbcsOut args xs = some (out, used) →
    (∀ ρ, ReplacedRBCs (argText args ρ) xs (meaningRBCs ρ out)) ∧
      ∀ n, n ∈ used ↔ ∃ s ∈ textsRBCs xs, Mentions s n
  | [], out, used, h => by
    simp only [rbcsOut, Option.some.injEq, Prod.mk.injEq] at h
    rw [← h.1, ← h.2]
    exact ⟨fun ρ => trivial, fun n => by simp [textsRBCs]⟩
  | x :: xs, out, used, h => by
    simp only [rbcsOut] at h
    split at h
    · rename_i a u b v h1 h2
      simp only [Option.some.injEq, Prod.mk.injEq] at h
      obtain ⟨p1, p2⟩ := rbcOut_spec x h1
      obtain ⟨q1, q2⟩ := rbcsOut_spec xs h2
      rw [← h.1, ← h.2]
      refine ⟨fun ρ => ⟨p1 ρ, q1 ρ⟩, fun n => ?_⟩
      rw [List.mem_append, p2, q2]
      simp only [textsRBCs, List.mem_append, or_and_right, exists_or]
    · cases h
end

mutual
theorem rbcOut_isSome (args : Args) : ∀ x : RBC,
    (∃ y, rbcOut args x = some y) ↔ ∀ s ∈ textsRBC x, TextOk args s
  | .rule c b => by
    have ih := rbcsOut_isSome args b
    have h0 := strsOut_isSome args c
    simp only [textsRBC, List.mem_append, or_imp, forall_and, ← ih, ← h0, rbcOut]
    constructor
    · rintro ⟨x, h⟩
      split at h
      · rename_i a u b v h1 h2; exact ⟨⟨_, h1⟩, ⟨_, h2⟩⟩
      · cases h
    · rintro ⟨⟨⟨a, u⟩, h1⟩, ⟨⟨b, v⟩, h2⟩⟩
      exact ⟨(.rule a b, u ++ v), by simp only [h1, h2]⟩
  | .block c b => by
    have ih := rbcsOut_isSome args b
    have h0 := selsOut_isSome args c
    simp only [textsRBC, List.mem_append, or_imp, forall_and, ← ih, ← h0, rbcOut]
    constructor
    · rintro ⟨x, h⟩
      split at h
      · rename_i a u b v h1 h2; exact ⟨⟨_, h1⟩, ⟨_, h2⟩⟩
      · cases h
    · rintro ⟨⟨⟨a, u⟩, h1⟩, ⟨⟨b, v⟩, h2⟩⟩
      exact ⟨(.block a b, u ++ v), by simp only [h1, h2]⟩
  | .attr k v => by
    have h0 := strsOut_isSome args v
    simp only [textsRBC, ← h0, rbcOut]
    constructor
    · rintro ⟨x, h⟩
      split at h
      · rename_i a u h1; exact ⟨_, h1⟩
      · cases h
    · rintro ⟨⟨a, u⟩, h1⟩
      exact ⟨(.attr (.str k) a, u), by simp only [h1]⟩
theorem rbcsOut_isSome (args : Args) : ∀ xs : List RBC,
    (∃ y, rbcsOut args xs = some y) ↔ ∀ s ∈ textsRBCs xs, TextOk args s
  | [] => by simp [rbcsOut, textsRBCs]
  | x :: xs => by
    have ih := rbcsOut_isSome args xs
    have h0 := rbcOut_isSome args x
    simp only [textsRBCs, List.mem_append, or_imp, forall_and, ← ih, ← h0, rbcsOut]
    constructor
    · rintro ⟨x, h⟩
      split at h
      · rename_i a u b v h1 h2; exact ⟨⟨_, h1⟩, ⟨_, h2⟩⟩
      · cases h
    · rintro ⟨⟨⟨a, u⟩, h1⟩, ⟨⟨b, v⟩, h2⟩⟩
      exact ⟨(a :: b, u ++ v), by simp only [h1, h2]⟩
end

theorem sheetOut_spec {args : Args} : ∀ (s : Sheet) {out : OSheet} {used : List Str},
    sheetOut args s = some (out, used) →
    (∀ ρ, ReplacedSheet (argText args ρ) s (meaning ρ out)) ∧
      ∀ n, n ∈ used ↔ ∃ t ∈ texts s, Mentions t n
  | [], out, used, h => by
    simp only [sheetOut, Option.some.injEq, Prod.mk.injEq] at h
    rw [← h.1, ← h.2]
    exact ⟨fun ρ => trivial, fun n => by simp [texts]⟩
  | .block c b :: xs, out, used, h => by
    simp only [sheetOut, scopeOut] at h
    split at h
    · rename_i a u b' v h0 h2
      simp only [Option.some.injEq, Prod.mk.injEq] at h
      split at h0
      · rename_i c1 u1 b1 v1 h3 h4
        simp only [Option.some.injEq, Prod.mk.injEq] at h0
        obtain ⟨p1, p2⟩ := selsOut_spec h3
        obtain ⟨q1, q2⟩ := rbcsOut_spec b h4
        obtain ⟨r1, r2⟩ := sheetOut_spec xs h2
        rw [← h.1, ← h.2, ← h0.1, ← h0.2]
        refine ⟨fun ρ => ⟨p1 ρ, q1 ρ, r1 ρ⟩, fun n => ?_⟩
        rw [List.mem_append, List.mem_append, p2, q2, r2]
        simp only [texts, List.mem_append, or_and_right, exists_or]
      · cases h0
    · cases h
  | .rule c b :: xs, out, used, h => by
    simp only [sheetOut, scopeOut] at h
    split at h
    · rename_i a u b' v h0 h2
      simp only [Option.some.injEq, Prod.mk.injEq] at h
      split at h0
      · rename_i c1 u1 b1 v1 h3 h4
        simp only [Option.some.injEq, Prod.mk.injEq] at h0
        obtain ⟨p1, p2⟩ := strsOut_spec h3
        obtain ⟨q1, q2⟩ := rbcsOut_spec b h4
        obtain ⟨r1, r2⟩ := sheetOut_spec xs h2
        rw [← h.1, ← h.2, ← h0.1, ← h0.2]
        refine ⟨fun ρ => ⟨by simpa using p1 ρ, q1 ρ, r1 ρ⟩, fun n => ?_⟩
        rw [List.mem_append, List.mem_append, p2, q2, r2]
        simp only [texts, List.mem_append, or_and_right, exists_or]
      · cases h0
    · cases h

theorem sheetOut_isSome (args : Args) : ∀ s : Sheet,
    (∃ y, sheetOut args s = some y) ↔ ∀ t ∈ texts s, TextOk args t
  | [] => by simp [sheetOut, texts]
  | .block c b :: xs => by
    have ih := sheetOut_isSome args xs
    have h0 := selsOut_isSome args c
    have h1 := rbcsOut_isSome args b
    simp only [texts, List.mem_append, or_imp, forall_and, ← ih, ← h0, ← h1, sheetOut, scopeOut]
    constructor
    · rintro ⟨x, h⟩
      split at h
      · rename_i a u b v h1 h2
        split at h1
        · rename_i c1 u1 b1 v1 h3 h4; exact ⟨⟨⟨_, h3⟩, ⟨_, h4⟩⟩, ⟨_, h2⟩⟩
        · cases h1
      · cases h
    · rintro ⟨⟨⟨⟨a, u⟩, h1⟩, ⟨⟨b, v⟩, h2⟩⟩, ⟨⟨c, w⟩, h3⟩⟩
      exact ⟨(.block a b :: c, (u ++ v) ++ w), by simp only [h1, h2, h3]⟩
  | .rule c b :: xs => by
    have ih := sheetOut_isSome args xs
    have h0 := strsOut_isSome args c
    have h1 := rbcsOut_isSome args b
    simp only [texts, List.mem_append, or_imp, forall_and, ← ih, ← h0, ← h1, sheetOut, scopeOut]
    constructor
    · rintro ⟨x, h⟩
      split at h
      · rename_i a u b v h1 h2
        split at h1
        · rename_i c1 u1 b1 v1 h3 h4; exact ⟨⟨⟨_, h3⟩, ⟨_, h4⟩⟩, ⟨_, h2⟩⟩
        · cases h1
      · cases h
    · rintro ⟨⟨⟨⟨a, u⟩, h1⟩, ⟨⟨b, v⟩, h2⟩⟩, ⟨⟨c, w⟩, h3⟩⟩
      exact ⟨(.rule a b :: c, (u ++ v) ++ w), by simp only [h1, h2, h3]⟩

/-! ## Joining -/

theorem replacedSels_joined (σ : Str → Option Str) : ∀ c c' : List Selector,
    ReplacedSels σ c (c'.map (fun s => [s.flatten])) ↔ ReplacedSels σ c c'
  | [], [] => by simp [ReplacedSels]
  | [], _ :: _ => by simp [ReplacedSels]
  | _ :: _, [] => by simp [ReplacedSels]
  | s :: ss, t :: ts => by
    simp only [List.map_cons, ReplacedSels, replacedSels_joined σ ss ts]
    simp

mutual
theorem replacedRBC_joined (σ : Str → Option Str) : ∀ x y : RBC, ReplacedRBC σ x (joinedRBC y) ↔ ReplacedRBC σ x y
  | .attr k v, .attr k' v' => by simp [joinedRBC, ReplacedRBC]
  | .rule c b, .rule c' b' => by simp [joinedRBC, ReplacedRBC, replacedRBCs_joined σ b b']
  | .block c b, .block c' b' => by
    simp [joinedRBC, ReplacedRBC, replacedRBCs_joined σ b b', replacedSels_joined]
  | .attr _ _, .rule _ _ => by simp [joinedRBC, ReplacedRBC]
  | .attr _ _, .block _ _ => by simp [joinedRBC, ReplacedRBC]
  | .rule _ _, .attr _ _ => by simp [joinedRBC, ReplacedRBC]
  | .rule _ _, .block _ _ => by simp [joinedRBC, ReplacedRBC]
  | .block _ _, .attr _ _ => by simp [joinedRBC, ReplacedRBC]
  | .block _ _, .rule _ _ => by simp [joinedRBC, ReplacedRBC]
theorem replacedRBCs_joined (σ : Str → Option Str) : ∀ xs ys : List RBC,
    ReplacedRBCs σ xs (joinedRBCs ys) ↔ ReplacedRBCs σ xs ys
  | [], [] => by simp [joinedRBCs, ReplacedRBCs]
  | [], _ :: _ => by simp [joinedRBCs, ReplacedRBCs]
  | _ :: _, [] => by simp [joinedRBCs, ReplacedRBCs]
  | x :: xs, y :: ys => by
    simp [joinedRBCs, ReplacedRBCs, replacedRBC_joined σ x y, replacedRBCs_joined σ xs ys]
end

theorem replacedSheet_joined (σ : Str → Option Str) : ∀ s t : Sheet,
    ReplacedSheet σ s (joined t) ↔ ReplacedSheet σ s t
  | [], [] => by simp [joined, ReplacedSheet]
  | [], .rule _ _ :: _ => by simp [joined, ReplacedSheet]
  | [], .block _ _ :: _ => by simp [joined, ReplacedSheet]
  | .rule _ _ :: _, [] => by simp [joined, ReplacedSheet]
  | .block _ _ :: _, [] => by simp [joined, ReplacedSheet]
  | .rule c b :: xs, .rule c' b' :: ys => by
    simp [joined, ReplacedSheet, replacedSheet_joined σ xs ys, replacedRBCs_joined]
  | .block c b :: xs, .block c' b' :: ys => by
    simp [joined, ReplacedSheet, replacedSheet_joined σ xs ys, replacedRBCs_joined, replacedSels_joined]
  | .rule _ _ :: _, .block _ _ :: _ => by simp [joined, ReplacedSheet]
  | .block _ _ :: _, .rule _ _ :: _ => by simp [joined, ReplacedSheet]

/-! ## Determinism -/

theorem replacedSels_unique {σ : Str → Option Str} : ∀ {c d d' : List Selector}, ReplacedSels σ c d →
    ReplacedSels σ c d' → d.map (fun s => [s.flatten]) = d'.map (fun s => [s.flatten])
  | [], [], [], _, _ => rfl
  | s :: ss, t :: ts, t' :: ts', h, h' => by
    simp only [List.map_cons, replaced_unique h.1 h'.1, replacedSels_unique h.2 h'.2]

mutual
theorem replacedRBC_unique {σ : Str → Option Str} : ∀ (x : RBC) {y y' : RBC}, ReplacedRBC σ x y →
    ReplacedRBC σ x y' → joinedRBC y = joinedRBC y'
  | .attr k v, .attr _ _, .attr _ _, h, h' => by
    obtain ⟨rfl, h2⟩ := h
    obtain ⟨rfl, h2'⟩ := h'
    simp only [joinedRBC, replaced_unique h2 h2']
  | .rule c b, .rule _ _, .rule _ _, h, h' => by
    simp only [joinedRBC, replaced_unique h.1 h'.1, replacedRBCs_unique b h.2 h'.2]
  | .block c b, .block _ _, .block _ _, h, h' => by
    simp only [joinedRBC, replacedSels_unique h.1 h'.1, replacedRBCs_unique b h.2 h'.2]
theorem replacedRBCs_unique {σ : Str → Option Str} : ∀ (xs : List RBC) {ys ys' : List RBC},
    ReplacedRBCs σ xs ys → ReplacedRBCs σ xs ys' → joinedRBCs ys = joinedRBCs ys'
  | [], [], [], _, _ => rfl
  | x :: xs, y :: ys, y' :: ys', h, h' => by
    simp only [joinedRBCs, replacedRBC_unique x h.1 h'.1, replacedRBCs_unique xs h.2 h'.2]
end

theorem replacedSheet_unique {σ : Str → Option Str} : ∀ (s : Sheet) {t t' : Sheet}, ReplacedSheet σ s t →
    ReplacedSheet σ s t' → joined t = joined t'
  | [], [], [], _, _ => rfl
  | .rule c b :: xs, .rule _ _ :: _, .rule _ _ :: _, h, h' => by
    simp only [joined, replaced_unique h.1 h'.1, replacedRBCs_unique b h.2.1 h'.2.1,
      replacedSheet_unique xs h.2.2 h'.2.2]
  | .block c b :: xs, .block _ _ :: _, .block _ _ :: _, h, h' => by
    simp only [joined, replacedSels_unique h.1 h'.1, replacedRBCs_unique b h.2.1 h'.2.1,
      replacedSheet_unique xs h.2.2 h'.2.2]

/-! ## Rendering -/

theorem write_flatten (cls : Option Str) (s : Selector) : Selector.write cls [s.flatten] = Selector.write cls s := by
  simp [Selector.write]

theorem condStr_joined (cls : Option Str) (c : List Selector) :
    condStr cls (c.map (fun s => [s.flatten])) = condStr cls c := by
  simp only [condStr, List.isEmpty_map, List.map_map]
  congr 3
  exact List.map_congr_left (fun s _ => write_flatten cls s)

mutual
theorem write_joined : ∀ (x : RBC) (ch : List _root_.Ctx), RBC.write (joinedRBC x) ch = RBC.write x ch
  | .attr k v, ch => by simp [joinedRBC, RBC.write]
  | .rule c b, ch => by
    cases ch with
    | nil => simp [joinedRBC, RBC.write]
    | cons c ps => simp [joinedRBC, RBC.write, writes_joined b]
  | .block c b, ch => by
    cases ch with
    | nil => simp [joinedRBC, RBC.write]
    | cons c ps => simp [joinedRBC, RBC.write, writes_joined b, condStr_joined]
theorem writes_joined : ∀ (xs : List RBC) (ch : List _root_.Ctx), RBC.writes (joinedRBCs xs) ch = RBC.writes xs ch
  | [], ch => rfl
  | x :: xs, ch => by simp [joinedRBCs, RBC.writes, write_joined x, writes_joined xs]
end

theorem sheet_write_joined : ∀ (s : Sheet) (ch : List _root_.Ctx), Sheet.write (joined s) ch = Sheet.write s ch
  | [], ch => rfl
  | .rule c b :: xs, ch => by
    have := write_joined (.rule c b) ch
    simp only [joinedRBC] at this
    simp only [joined, Sheet.write, ScopeContent.toRBC, this, sheet_write_joined xs]
  | .block c b :: xs, ch => by
    have := write_joined (.block c b) ch
    simp only [joinedRBC] at this
    simp only [joined, Sheet.write, ScopeContent.toRBC, this, sheet_write_joined xs]

theorem toStyleStr_joined (s : Sheet) (cls : Option Str) : (joined s).toStyleStr cls = s.toStyleStr cls := by
  simp [Sheet.toStyleStr, sheet_write_joined]

/-! ## Texts without interpolation -/

theorem replaced_plain (σ : Str → Option Str) {s : Str} (h : '$' ∉ s ∧ '{' ∉ s) : Replaced σ s s := by
  cases s with
  | nil => exact Replaced.nil _
  | cons c s =>
    exact ⟨[.run (c :: s)], ⟨by simp [Piece.Ok, h], by simp [Piece.text]⟩, [c :: s], by simp [Piece.value], by simp⟩

theorem replaced_plains (σ : Str → Option Str) : ∀ {ss : List Str}, (∀ s ∈ ss, '$' ∉ s ∧ '{' ∉ s) →
    Replaced σ ss.flatten ss.flatten
  | [], _ => Replaced.nil _
  | s :: ss, h => by
    rw [List.flatten_cons]
    exact Replaced.append (replaced_plain σ (h s (by simp))) (replaced_plains σ (fun t ht => h t (by simp [ht])))

theorem replacedSels_plain (σ : Str → Option Str) : ∀ {c : List Selector}, (∀ s ∈ c.flatten, '$' ∉ s ∧ '{' ∉ s) →
    ReplacedSels σ c c
  | [], _ => trivial
  | s :: ss, h => ⟨replaced_plains σ (fun t ht => h t (by simp [ht])),
      replacedSels_plain σ (fun t ht => h t (by rw [List.flatten_cons]; exact List.mem_append_right _ ht))⟩

mutual
theorem replacedRBC_plain (σ : Str → Option Str) : ∀ (x : RBC), (∀ s ∈ textsRBC x, '$' ∉ s ∧ '{' ∉ s) → ReplacedRBC σ x x
  | .attr _ _, h => ⟨rfl, replaced_plains σ h⟩
  | .rule _ b, h => ⟨replaced_plains σ (fun t ht => h t (List.mem_append_left _ ht)),
      replacedRBCs_plain σ b (fun t ht => h t (List.mem_append_right _ ht))⟩
  | .block _ b, h => ⟨replacedSels_plain σ (fun t ht => h t (List.mem_append_left _ ht)),
      replacedRBCs_plain σ b (fun t ht => h t (List.mem_append_right _ ht))⟩
theorem replacedRBCs_plain (σ : Str → Option Str) : ∀ (xs : List RBC), (∀ s ∈ textsRBCs xs, '$' ∉ s ∧ '{' ∉ s) →
    ReplacedRBCs σ xs xs
  | [], _ => trivial
  | x :: xs, h => ⟨replacedRBC_plain σ x (fun t ht => h t (List.mem_append_left _ ht)),
      replacedRBCs_plain σ xs (fun t ht => h t (List.mem_append_right _ ht))⟩
end

theorem replacedSheet_plain (σ : Str → Option Str) : ∀ (s : Sheet), (∀ t ∈ texts s, '$' ∉ t ∧ '{' ∉ t) →
    ReplacedSheet σ s s
  | [], _ => trivial
  | .rule c b :: xs, h => by
    simp only [texts, List.mem_append, or_imp, forall_and] at h
    refine ⟨replaced_plains σ (fun t ht => ⟨h.1.1.1 t ht, h.2.1.1 t ht⟩), replacedRBCs_plain σ b ?_, replacedSheet_plain σ xs ?_⟩
    · exact fun t ht => ⟨h.1.1.2 t ht, h.2.1.2 t ht⟩
    · exact fun t ht => ⟨h.1.2 t ht, h.2.2 t ht⟩
  | .block c b :: xs, h => by
    simp only [texts, List.mem_append, or_imp, forall_and] at h
    refine ⟨replacedSels_plain σ (fun t ht => ⟨h.1.1.1 t ht, h.2.1.1 t ht⟩), replacedRBCs_plain σ b ?_, replacedSheet_plain σ xs ?_⟩
    · exact fun t ht => ⟨h.1.1.2 t ht, h.2.1.2 t ht⟩
    · exact fun t ht => ⟨h.1.2 t ht, h.2.2 t ht⟩

theorem mentions_special {s n : Str} (h : Mentions s n) : '$' ∈ s := by
  obtain ⟨ps, b, a, ⟨-, rfl⟩, hm⟩ := h
  exact List.mem_flatMap.2 ⟨_, hm, by simp [Piece.text]⟩

/-! ## The macro -/

theorem macroFn_some {t s : Str} {rest : List Tree} {code : CSheet} :
    macroFn (.lit t (some s) :: rest) = some code ↔
      ∃ sheet args out used, Css.parse s = some sheet ∧ (ArgTokens rest args ∧ (names args).Nodup) ∧
        sheetOut args sheet = some (out, used) ∧ (∀ n ∈ names args, n ∈ used) ∧ code = reifySheet out := by
  constructor
  · intro h
    simp only [macroFn] at h
    split at h
    · cases h
    · rename_i sheet h1
      split at h
      · cases h
      · rename_i args h2
        split at h
        · cases h
        · rename_i out used h3
          split at h
          · rename_i h4
            cases h
            refine ⟨sheet, args, out, used, h1, parseArgs_iff.1 h2, h3, ?_, rfl⟩
            intro n hn
            obtain ⟨a, ha, rfl⟩ := List.mem_map.1 hn
            simpa using List.all_eq_true.1 h4 a ha
          · cases h
  · rintro ⟨sheet, args, out, used, h1, h2, h3, h4, rfl⟩
    have h4' : args.all (fun a => used.elem a.1) = true :=
      List.all_eq_true.2 (fun a ha => by simpa using h4 a.1 (List.mem_map.2 ⟨a, ha, rfl⟩))
    simp only [macroFn, h1, parseArgs_iff.2 h2, h3, h4', if_true]

/-! ## Without arguments -/

theorem fragsOut_static {args : Args} : ∀ (fs : List Fragment) (out : List OFrag) (used : List Str),
    fragsOut args fs = some (out, used) → args = [] → ¬ ∃ f ∈ out, FragDyn f
  | [], out, used, h, _ => by
    simp only [fragsOut, Option.some.injEq, Prod.mk.injEq] at h; rw [← h.1]; simp
  | .literal s :: fs, out, used, h, he => by
    simp only [fragsOut] at h
    split at h
    · cases h
    · rename_i o u ho
      simp only [Option.some.injEq, Prod.mk.injEq] at h
      rw [← h.1]
      have ih := fragsOut_static fs o u ho he
      rintro ⟨f, hf, hd⟩
      rcases List.mem_cons.1 hf with rfl | hf
      · exact hd
      · exact ih ⟨f, hf, hd⟩
  | .interpolation m :: fs, out, used, h, he => by
    subst he
    simp [fragsOut, Args.get] at h

theorem strsOut_static {args : Args} (he : args = []) : ∀ {ss : List Str} {out : List OFrag} {used : List Str},
    strsOut args ss = some (out, used) → ¬ ∃ f ∈ out, FragDyn f
  | [], out, used, h => by
    simp only [strsOut, Option.some.injEq, Prod.mk.injEq] at h; rw [← h.1]; simp
  | s :: ss, out, used, h => by
    simp only [strsOut] at h
    split at h
    · rename_i a u b v h1 h2
      simp only [Option.some.injEq, Prod.mk.injEq] at h
      rw [← h.1]
      have ih := strsOut_static he h2
      have h0 : ¬ ∃ f ∈ a, FragDyn f := by
        unfold strOut at h1
        split at h1
        · cases h1
        · exact fragsOut_static _ _ _ h1 he
      rintro ⟨f, hf, hd⟩
      rcases List.mem_append.1 hf with hf | hf
      · exact h0 ⟨f, hf, hd⟩
      · exact ih ⟨f, hf, hd⟩
    · cases h

theorem selsOut_static {args : Args} (he : args = []) : ∀ {ss : List Selector} {out : List (List OFrag)} {used : List Str},
    selsOut args ss = some (out, used) → ¬ ∃ s ∈ out, ∃ f ∈ s, FragDyn f
  | [], out, used, h => by
    simp only [selsOut, Option.some.injEq, Prod.mk.injEq] at h; rw [← h.1]; simp
  | s :: ss, out, used, h => by
    simp only [selsOut] at h
    split at h
    · rename_i a u b v h1 h2
      simp only [Option.some.injEq, Prod.mk.injEq] at h
      rw [← h.1]
      have ih := selsOut_static he h2
      have h0 := strsOut_static he h1
      rintro ⟨x, hx, hd⟩
      rcases List.mem_cons.1 hx with rfl | hx
      · exact h0 hd
      · exact ih ⟨x, hx, hd⟩
    · cases h

mutual
theorem rbcOut_static {args : Args} (he : args = []) : ∀ (x : RBC) {out : ORBC} {used : List Str},
    rbcOut args x = some (out, used) → ¬ DynRBC out
  | .rule c b, out, used, h => by
    simp only [rbcOut] at h
    split at h
    · rename_i c' u b' v h1 h2
      simp only [Option.some.injEq, Prod.mk.injEq] at h
      rw [← h.1]
      rintro (hd | hd)
      · exact strsOut_static he h1 hd
      · exact rbcsOut_static he b h2 hd
    · cases h
  | .block c b, out, used, h => by
    simp only [rbcOut] at h
    split at h
    · rename_i c' u b' v h1 h2
      simp only [Option.some.injEq, Prod.mk.injEq] at h
      rw [← h.1]
      rintro (hd | hd)
      · exact selsOut_static he h1 hd
      · exact rbcsOut_static he b h2 hd
    · cases h
  | .attr k v, out, used, h => by
    simp only [rbcOut] at h
    split at h
    · rename_i c' u h1
      simp only [Option.some.injEq, Prod.mk.injEq] at h
      rw [← h.1]
      rintro (hd | hd)
      · exact hd
      · exact strsOut_static he h1 hd
    · cases h
theorem rbcsOut_static {args : Args} (he : args = []) : ∀ (xs : List RBC) {out : List ORBC} {used : List Str},
    rbcsOut args xs = some (out, used) → ¬ DynRBCs out
  | [], out, used, h => by
    simp only [rbcsOut, Option.some.injEq, Prod.mk.injEq] at h; rw [← h.1]; simp [DynRBCs]
  | x :: xs, out, used, h => by
    simp only [rbcsOut] at h
    split at h
    · rename_i a u b v h1 h2
      simp only [Option.some.injEq, Prod.mk.injEq] at h
      rw [← h.1]
      rintro (hd | hd)
      · exact rbcOut_static he x h1 hd
      · exact rbcsOut_static he xs h2 hd
    · cases h
end

theorem sheetOut_static (args : Args) : ∀ (s : Sheet) (out : OSheet) (used : List Str),
    sheetOut args s = some (out, used) → args = [] → ¬ Dyn out
  | [], out, used, h, _ => by
    simp only [sheetOut, Option.some.injEq, Prod.mk.injEq] at h; rw [← h.1]; simp [Dyn]
  | .rule c b :: xs, out, used, h, he => by
    simp only [sheetOut, scopeOut] at h
    split at h
    · rename_i a u b' v h0 h2
      simp only [Option.some.injEq, Prod.mk.injEq] at h
      split at h0
      · rename_i c1 u1 b1 v1 h3 h4
        simp only [Option.some.injEq, Prod.mk.injEq] at h0
        rw [← h.1, ← h0.1]
        rintro (hd | hd | hd)
        · exact strsOut_static he h3 hd
        · exact rbcsOut_static he b h4 hd
        · exact sheetOut_static args xs _ _ h2 he hd
      · cases h0
    · cases h
  | .block c b :: xs, out, used, h, he => by
    simp only [sheetOut, scopeOut] at h
    split at h
    · rename_i a u b' v h0 h2
      simp only [Option.some.injEq, Prod.mk.injEq] at h
      split at h0
      · rename_i c1 u1 b1 v1 h3 h4
        simp only [Option.some.injEq, Prod.mk.injEq] at h0
        rw [← h.1, ← h0.1]
        rintro (hd | hd | hd)
        · exact selsOut_static he h3 hd
        · exact rbcsOut_static he b h4 hd
        · exact sheetOut_static args xs _ _ h2 he hd
      · cases h0
    · cases h

end Literal
