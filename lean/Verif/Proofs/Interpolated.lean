import Verif.Proofs.Evaluation
import Verif.Proofs.Emit
import Verif.Proofs.Literal

/-! # Which expressions the macros evaluate -/

namespace Inline
open Spec Output

mutual
/-- The expressions of a component value. -/
def cvExprs : CV → List RExpr
  | .func _ args => cvsExprs args
  | .tok _ => []
  | .block _ cs => cvsExprs cs
  | .expr _ e => exprIn e
/-- Of a list. -/
def cvsExprs : List CV → List RExpr
  | [] => []
  | c :: cs => cvExprs c ++ cvsExprs cs
end

theorem exprsIn_true {ts : List Tree} (h : ∀ e r, ts ≠ .group .brace e :: r) : exprsIn true ts = exprsIn false ts := by
  cases ts with
  | nil => rfl
  | cons t ts =>
    cases t with
    | group d c =>
      cases d with
      | brace => exact absurd rfl (h c ts)
      | bracket => rfl
      | paren => rfl
    | ident => rfl
    | punct => rfl
    | lit => rfl

theorem exprsIn_parts : ∀ (i : CssIdent) (rest : List Tree), exprsIn false (i.map partTree ++ rest) = exprsIn false rest
  | [], rest => rfl
  | .dash j :: i, rest => by
    simp only [List.map_cons, List.cons_append, partTree, exprsIn]
    exact exprsIn_parts i rest
  | .ident n r :: i, rest => by
    simp only [List.map_cons, List.cons_append, partTree, exprsIn, exprsTree, List.nil_append]
    exact exprsIn_parts i rest

theorem exprsIn_punct {c : Char} (h : c ≠ '$') (b j : Bool) (rest : List Tree) :
    exprsIn b (.punct c j :: rest) = exprsIn false rest := by
  have : (c == '$') = false := by simp [h]
  cases b <;> simp [exprsIn, this]

theorem exprsIn_group (d : Delim) (c rest : List Tree) :
    exprsIn false (.group d c :: rest) = exprsIn false c ++ exprsIn false rest := by
  cases d <;> simp [exprsIn, exprsTree]

mutual
theorem exprsIn_cv {isExpr : RExpr → Bool} : ∀ (c : CV) (rest : List Tree), CVOk isExpr c → Followed c rest →
    exprsIn false (tokensCV c ++ rest) = cvExprs c ++ exprsIn false rest
  | .func i args, rest, h, _ => by
    have := exprsIn_cvs args [] h.2.2
    simp only [List.append_nil] at this
    simp only [tokensCV, List.append_assoc, exprsIn_parts, cvExprs, List.singleton_append, exprsIn_group, this]
    simp [exprsIn]
  | .tok (.ident i), rest, _, _ => by simp [tokensCV, exprsIn_parts, cvExprs]
  | .tok (.punct c j), rest, _, h => by
    simp only [tokensCV, List.singleton_append, cvExprs, List.nil_append]
    by_cases hc : c = '$'
    · subst hc
      have : exprsIn false (.punct '$' j :: rest) = exprsIn true rest := by simp [exprsIn]
      rw [this]
      exact exprsIn_true (h.1 rfl)
    · exact exprsIn_punct hc _ _ _
  | .tok (.lit t s), rest, _, _ => by simp [tokensCV, exprsIn, exprsTree, cvExprs]
  | .block d cs, rest, h, _ => by
    have := exprsIn_cvs cs [] h
    simp only [List.append_nil] at this
    simp only [tokensCV, cvExprs, List.singleton_append, exprsIn_group, this]
    simp [exprsIn]
  | .expr j e, rest, _, _ => by simp [tokensCV, exprsIn, cvExprs]
theorem exprsIn_cvs {isExpr : RExpr → Bool} : ∀ (cs : List CV) (rest : List Tree), CVsOk isExpr cs rest →
    exprsIn false (tokens cs ++ rest) = cvsExprs cs ++ exprsIn false rest
  | [], rest, _ => rfl
  | c :: cs, rest, ⟨h1, h2, h3⟩ => by
    simp only [tokens, List.append_assoc, cvsExprs]
    rw [exprsIn_cv c _ h1 h2, exprsIn_cvs cs rest h3]
end

/-! ## Fragments -/

theorem fragsExprs_append (a b : List OFrag) : fragsExprs (a ++ b) = fragsExprs a ++ fragsExprs b := by
  simp [fragsExprs]

mutual
theorem fragsCV_exprs : ∀ c : CV, fragsExprs (fragsCV c) = cvExprs c
  | .func i args => by
    simp only [fragsCV, fragsExprs_cons, fragsExprs_append, frags_exprs args, cvExprs]
    simp [fragExprs, fragsExprs]
  | .tok t => by simp [fragsCV, fragsExprs, fragExprs, cvExprs]
  | .block d cs => by
    simp only [fragsCV, fragsExprs_cons, fragsExprs_append, frags_exprs cs, cvExprs]
    simp [fragExprs, fragsExprs]
  | .expr j e => by simp [fragsCV, fragsExprs, fragExprs, cvExprs]
theorem frags_exprs : ∀ cs : List CV, fragsExprs (frags cs) = cvsExprs cs
  | [] => rfl
  | c :: cs => by simp only [frags, fragsExprs_append, fragsCV_exprs c, frags_exprs cs, cvsExprs]
end

theorem between_exprs {τ : Type} (f : τ → OFrag → OFrag → Option OFrag × τ)
    (hf : ∀ s l r x, (f s l r).1 = some x → fragExprs x = []) : ∀ (s : τ) (fs : List OFrag),
    fragsExprs (between f s fs) = fragsExprs fs
  | _, [] => rfl
  | _, [x] => rfl
  | s, x :: y :: xs => by
    simp only [between, List.cons_append, fragsExprs_cons, fragsExprs_append]
    rw [between_exprs f hf _ (y :: xs), fragsExprs_cons]
    have : fragsExprs (f s x y).1.toList = [] := by
      cases h : (f s x y).1 with
      | none => rfl
      | some z => simp [fragsExprs, hf s x y z h]
    rw [this, List.nil_append]

theorem spacedFrags_exprs (cs : List CV) : fragsExprs (Spec.spacedFrags cs) = cvsExprs cs := by
  unfold Spec.spacedFrags
  rw [between_exprs, frags_exprs]
  intro s l r x h
  simp only at h
  split at h
  · cases h; rfl
  · cases h

theorem splitCommas_exprs : ∀ cs : List CV, (splitCommas cs).flatMap cvsExprs = cvsExprs cs
  | [] => rfl
  | c :: cs => by
    have ih := splitCommas_exprs cs
    cases hc : isComma c with
    | true =>
      obtain ⟨j, rfl⟩ := (isComma_iff c).1 hc
      rw [splitCommas_comma]
      simp [ih, cvsExprs, cvExprs]
    | false =>
      rw [splitCommas_other hc]
      cases hs : splitCommas cs with
      | nil => exact absurd hs (splitCommas_ne cs)
      | cons p ps =>
        rw [hs] at ih
        simp only [List.flatMap_cons] at ih
        simp [cvsExprs, ih]

theorem dropEmpty_exprs : ∀ l : List (List CV), (dropEmpty l).flatMap cvsExprs = l.flatMap cvsExprs
  | [] => rfl
  | [[]] => rfl
  | [c :: cs] => rfl
  | p :: q :: ps => by
    have ih := dropEmpty_exprs (q :: ps)
    rw [dropEmpty_cons (.inr (by simp))]
    simp only [List.flatMap_cons] at ih ⊢
    rw [ih]

theorem selectors_exprs (cs : List CV) : fragsExprs (selectors cs).flatten = cvsExprs cs := by
  rw [← splitCommas_exprs cs, ← dropEmpty_exprs]
  unfold selectors
  induction dropEmpty (splitCommas cs) with
  | nil => rfl
  | cons p ps ih =>
    simp only [List.map_cons, List.flatten_cons, fragsExprs_append, spacedFrags_exprs, ih, List.flatMap_cons]

theorem keyOf_exprs {c : CV} (h : IsName c) : keyExprs (keyOf c) = cvExprs c := by
  cases c with
  | func => cases h
  | block => cases h
  | tok t =>
    cases t with
    | ident => rfl
    | punct => cases h
    | lit => cases h
  | expr j e =>
    simp only [cvExprs]
    by_cases h : ∃ t v, e = [.lit t (some v)]
    · obtain ⟨t, v, rfl⟩ := h; rfl
    · have h1 : keyOf (.expr j e) = .raw e := by
        unfold keyOf
        split <;> rename_i heq
        · cases heq
        · cases heq; exact absurd ⟨_, _, rfl⟩ h
        · cases heq; rfl
        · exact absurd rfl (heq j e)
      have h2 : exprIn e = [e] := by
        unfold exprIn
        split
        · exact absurd ⟨_, _, rfl⟩ h
        · rfl
      rw [h1, h2]; rfl

/-! ## Items -/

mutual
/-- The expressions of an item. -/
def itemExprs : SItem → List RExpr
  | .decl name vs => cvExprs name ++ cvsExprs vs
  | .rule _ ps body => cvsExprs ps ++ itemsExprs body
  | .block qs body => cvsExprs qs ++ itemsExprs body
/-- Of a list. -/
def itemsExprs : List SItem → List RExpr
  | [] => []
  | i :: is => itemExprs i ++ itemsExprs is
end

theorem sheets_exprs {isExpr : RExpr → Bool} {b : Bool} {ts : List Tree} {is : List SItem}
    (h : Sheets isExpr b ts is) : exprsIn false ts = itemsExprs is := by
  induction h with
  | nil => rfl
  | decl b j j' name vs rest is hn h1 h2 h3 h4 h5 ih =>
    have f2 : Followed name (.punct ':' j :: (tokens vs ++ .punct ';' j' :: rest)) :=
      followed_head (x := []) h2
    have f3 : CVsOk isExpr vs (.punct ';' j' :: rest) := cvsOk_head h3
    rw [exprsIn_cv name _ h1 f2, exprsIn_punct (by decide), exprsIn_cvs vs _ f3, exprsIn_punct (by decide), ih]
    simp [itemsExprs, itemExprs]
  | rule b j name ps inner body rest is hm h1 h2 h3 h4 h5 h6 ih1 ih2 =>
    have f3 : CVsOk isExpr ps (.group .brace inner :: rest) := cvsOk_head h3
    rw [exprsIn_punct (by decide), exprsIn_parts, exprsIn_cvs ps _ f3, exprsIn_group, ih1, ih2]
    simp [itemsExprs, itemExprs]
  | block qs inner body rest is h1 h2 h3 h4 h5 ih1 ih2 =>
    have f1 : CVsOk isExpr qs (.group .brace inner :: rest) := cvsOk_head h1
    rw [exprsIn_cvs qs _ f1, exprsIn_group, ih1, ih2]
    simp [itemsExprs, itemExprs]

theorem condition_exprs (name : CssIdent) (ps : List CV) : fragsExprs (condition name ps) = cvsExprs ps := by
  unfold condition
  rw [fragsExprs_cons, spacedFrags_exprs]
  rfl

theorem emitsIn_exprs {is : List SItem} {out : List ORBC} (h : EmitsIn is out) : ∀ {b}, FineL b is →
    exprsRBCs out = itemsExprs is := by
  induction h with
  | nil => intro _ _; rfl
  | decl name vs is out h ih =>
    intro b hf
    simp only [exprsRBCs, declOut, exprsRBC, itemsExprs, itemExprs, keyOf_exprs hf.1.1, spacedFrags_exprs, ih hf.2]
  | rule name ps body a is out h1 h2 ih1 ih2 =>
    intro b hf
    simp only [exprsRBCs, exprsRBC, itemsExprs, itemExprs, condition_exprs, ih1 hf.1, ih2 hf.2]

theorem itemsExprs_append : ∀ a b : List SItem, itemsExprs (a ++ b) = itemsExprs a ++ itemsExprs b
  | [], b => rfl
  | i :: a, b => by simp only [List.cons_append, itemsExprs, itemsExprs_append a b, List.append_assoc]

theorem decls_exprs : ∀ ds : List SItem, (∀ d ∈ ds, IsDecl d) → FineL false ds →
    exprsRBCs (ds.map declOut) = itemsExprs ds
  | [], _, _ => rfl
  | .decl name vs :: ds, h, hf => by
    have ih := decls_exprs ds (fun d hd => h d (by simp [hd])) hf.2
    simp only [List.map_cons, exprsRBCs, declOut, exprsRBC, itemsExprs, itemExprs, keyOf_exprs hf.1.1,
      spacedFrags_exprs, ih]
  | .rule n p b :: ds, h, _ => False.elim (h (.rule n p b) (by simp))
  | .block q b :: ds, h, _ => False.elim (h (.block q b) (by simp))

theorem emits_exprs {is : List SItem} {out : List ORBC} (h : Emits is out) : FineL false is →
    exprsRBCs out = itemsExprs is := by
  induction h with
  | nil => intro _; rfl
  | decls ds is out hne hds hhd h ih =>
    intro hf
    obtain ⟨h1, h2⟩ := (fineL_append ds is).1 hf
    simp only [exprsRBCs, exprsRBC, List.flatten_nil, itemsExprs_append, decls_exprs ds hds h1, ih h2]
    simp [fragsExprs]
  | rule name ps body a is out h1 h2 ih1 ih2 =>
    intro hf
    simp only [exprsRBCs, exprsRBC, itemsExprs, itemExprs, condition_exprs, ih1 hf.1, ih2 hf.2]
  | block qs body a is out h1 h2 ih2 =>
    intro hf
    simp only [exprsRBCs, exprsRBC, itemsExprs, itemExprs, selectors_exprs, emitsIn_exprs h1 hf.1.2, ih2 hf.2]

theorem out_exprs {isExpr : RExpr → Bool} {ts : List Tree} {is : List SItem} {out : OSheet}
    (h : Sheets isExpr false ts is) (ho : Emits is (out.map scopeRBC)) : exprsOut out = exprsIn false ts := by
  rw [sheets_exprs h, exprsOut, emits_exprs ho (sheets_fine h)]

end Inline

namespace Literal
open Spec Output

/-- The expressions of the arguments with these names. -/
def argExprs (args : Args) (ns : List Str) : List (Option RExpr) := ns.map (fun n => args.lookup n)

theorem argExprs_append (args : Args) (a b : List Str) : argExprs args (a ++ b) = argExprs args a ++ argExprs args b := by
  simp [argExprs]

theorem fragsOut_exprs {args : Args} : ∀ (fs : List Fragment) {out : List OFrag} {used : List Str},
    fragsOut args fs = some (out, used) → (fragsExprs out).map some = argExprs args used ∧
      ∀ ps : List Piece, fs = ps.map Piece.frag → used = ps.flatMap Piece.names
  | [], out, used, h => by
    simp only [fragsOut, Option.some.injEq, Prod.mk.injEq] at h
    rw [← h.1, ← h.2]
    refine ⟨rfl, ?_⟩
    rintro (_ | ⟨p, ps⟩) hp
    · rfl
    · simp at hp
  | .literal s :: fs, out, used, h => by
    simp only [fragsOut] at h
    split at h
    · cases h
    · rename_i o u ho
      simp only [Option.some.injEq, Prod.mk.injEq] at h
      obtain ⟨h1, h2⟩ := fragsOut_exprs fs ho
      rw [← h.1, ← h.2]
      refine ⟨by rw [fragsExprs_cons]; exact h1, ?_⟩
      rintro (_ | ⟨p, ps⟩) hp
      · simp at hp
      · simp only [List.map_cons, List.cons.injEq] at hp
        rw [h2 ps hp.2]
        cases p <;> simp [Piece.frag, Piece.names] at hp ⊢
  | .interpolation n :: fs, out, used, h => by
    simp only [fragsOut] at h
    split at h
    · cases h
    · rename_i e he
      split at h
      · cases h
      · rename_i o u ho
        simp only [Option.some.injEq, Prod.mk.injEq] at h
        obtain ⟨h1, h2⟩ := fragsOut_exprs fs ho
        rw [← h.1, ← h.2]
        refine ⟨?_, ?_⟩
        · rw [get_eq] at he
          simp only [fragsExprs_cons, fragExprs, List.singleton_append, List.map_cons, argExprs, he, h1]
        · rintro (_ | ⟨p, ps⟩) hp
          · simp at hp
          · simp only [List.map_cons, List.cons.injEq] at hp
            rw [h2 ps hp.2]
            cases p <;> simp [Piece.frag, Piece.names] at hp ⊢
            exact hp.1

theorem strOut_exprs {args : Args} {s : Str} {out : List OFrag} {used : List Str}
    (h : strOut args s = some (out, used)) : (fragsExprs out).map some = argExprs args used ∧
      ∃ ps, Pieces s ps ∧ used = ps.flatMap Piece.names := by
  unfold strOut at h
  split at h
  · cases h
  · rename_i fs hfs
    obtain ⟨ps, h1, -, h2⟩ := parseFragments_iff.1 hfs
    obtain ⟨h3, h4⟩ := fragsOut_exprs fs h
    exact ⟨h3, ps, h1, h4 ps h2⟩

theorem uses_append {a b m n : List Str} (h : Uses a m) (h' : Uses b n) : Uses (a ++ b) (m ++ n) := by
  induction h with
  | nil => exact h'
  | cons s ps ss ns hp _ ih => rw [List.append_assoc]; exact .cons s ps _ _ hp ih

theorem merge_names : ∀ ps : List Piece, (merge ps).flatMap Piece.names = ps.flatMap Piece.names
  | [] => rfl
  | .run a :: ps => by
    have ih := merge_names ps
    simp only [merge]
    split
    · rename_i b qs hm
      rw [hm] at ih
      simpa [Piece.names] using ih
    · simpa [Piece.names] using ih
  | .escape :: ps => by simp only [merge, List.flatMap_cons, merge_names ps]
  | .hole _ _ _ :: ps => by simp only [merge, List.flatMap_cons, merge_names ps]

theorem frag_names : ∀ {ps qs : List Piece}, ps.map Piece.frag = qs.map Piece.frag →
    ps.flatMap Piece.names = qs.flatMap Piece.names
  | [], [], _ => rfl
  | [], _ :: _, h => by simp at h
  | _ :: _, [], h => by simp at h
  | p :: ps, q :: qs, h => by
    simp only [List.map_cons, List.cons.injEq] at h
    have h1 : p.names = q.names := by
      cases p <;> cases q <;> simp [Piece.frag, Piece.names] at h ⊢
      exact h.1
    simp only [List.flatMap_cons, h1, frag_names h.2]

theorem pieces_names {s : Str} {ps qs : List Piece} (h : Pieces s ps) (h' : Pieces s qs) :
    ps.flatMap Piece.names = qs.flatMap Piece.names := by
  have h1 := parse_merge h
  rw [parse_merge h'] at h1
  rw [← merge_names ps, ← merge_names qs]
  exact frag_names (Option.some.inj h1).symm

theorem uses_unique {ss m n : List Str} (h : Uses ss m) (h' : Uses ss n) : m = n := by
  induction h generalizing n with
  | nil => cases h'; rfl
  | cons s ps ss ns hp _ ih =>
    cases h' with
    | cons _ qs _ ns' hq h2 => rw [pieces_names hp hq, ih h2]

theorem strsOut_exprs {args : Args} : ∀ {ss : List Str} {out : List OFrag} {used : List Str},
    strsOut args ss = some (out, used) → (fragsExprs out).map some = argExprs args used ∧ Uses ss used
  | [], out, used, h => by
    simp only [strsOut, Option.some.injEq, Prod.mk.injEq] at h
    rw [← h.1, ← h.2]
    exact ⟨rfl, .nil⟩
  | s :: ss, out, used, h => by
    simp only [strsOut] at h
    split at h
    · rename_i a u b v h1 h2
      simp only [Option.some.injEq, Prod.mk.injEq] at h
      obtain ⟨p1, ps, p2, rfl⟩ := strOut_exprs h1
      obtain ⟨q1, q2⟩ := strsOut_exprs h2
      rw [← h.1, ← h.2, Inline.fragsExprs_append, List.map_append, argExprs_append, p1, q1]
      exact ⟨rfl, .cons s ps ss v p2 q2⟩
    · cases h

theorem selsOut_exprs {args : Args} : ∀ {ss : List Selector} {out : List (List OFrag)} {used : List Str},
    selsOut args ss = some (out, used) → (fragsExprs out.flatten).map some = argExprs args used ∧ Uses ss.flatten used
  | [], out, used, h => by
    simp only [selsOut, Option.some.injEq, Prod.mk.injEq] at h
    rw [← h.1, ← h.2]
    exact ⟨rfl, .nil⟩
  | s :: ss, out, used, h => by
    simp only [selsOut] at h
    split at h
    · rename_i a u b v h1 h2
      simp only [Option.some.injEq, Prod.mk.injEq] at h
      obtain ⟨p1, p2⟩ := strsOut_exprs h1
      obtain ⟨q1, q2⟩ := selsOut_exprs h2
      rw [← h.1, ← h.2, List.flatten_cons, List.flatten_cons, Inline.fragsExprs_append, List.map_append,
        argExprs_append, p1, q1]
      exact ⟨rfl, uses_append p2 q2⟩
    · cases h

mutual
theorem rbcOut_exprs {args : Args} : ∀ (x : RBC) {out : ORBC} {used : List Str},
    rbcOut args x = some (out, used) → (exprsRBC out).map some = argExprs args used ∧ Uses (textsRBC x) used
  | .rule c b, out, used, h => by
    simp only [rbcOut] at h
    split at h
    · rename_i c' u b' v h1 h2
      simp only [Option.some.injEq, Prod.mk.injEq] at h
      obtain ⟨p1, p2⟩ := strsOut_exprs h1
      obtain ⟨q1, q2⟩ := rbcsOut_exprs b h2
      rw [← h.1, ← h.2, exprsRBC, List.map_append, argExprs_append, p1, q1]
      exact ⟨rfl, uses_append p2 q2⟩
    · cases h
  | .block c b, out, used, h => by
    simp only [rbcOut] at h
    split at h
    · rename_i c' u b' v h1 h2
      simp only [Option.some.injEq, Prod.mk.injEq] at h
      obtain ⟨p1, p2⟩ := selsOut_exprs h1
      obtain ⟨q1, q2⟩ := rbcsOut_exprs b h2
      rw [← h.1, ← h.2, exprsRBC, List.map_append, argExprs_append, p1, q1]
      exact ⟨rfl, uses_append p2 q2⟩
    · cases h
  | .attr k v, out, used, h => by
    simp only [rbcOut] at h
    split at h
    · rename_i c' u h1
      simp only [Option.some.injEq, Prod.mk.injEq] at h
      obtain ⟨p1, p2⟩ := strsOut_exprs h1
      rw [← h.1, ← h.2, exprsRBC]
      exact ⟨p1, p2⟩
    · cases h
theorem rbcsOut_exprs {args : Args} : ∀ (xs : List RBC) {out : List ORBC} {used : List Str},
    rbcsOut args xs = some (out, used) → (exprsRBCs out).map some = argExprs args used ∧ Uses (textsRBCs xs) used
  | [], out, used, h => by
    simp only [rbcsOut, Option.some.injEq, Prod.mk.injEq] at h
    rw [← h.1, ← h.2]
    exact ⟨rfl, .nil⟩
  | x :: xs, out, used, h => by
    simp only [rbcsOut] at h
    split at h
    · rename_i a u b v h1 h2
      simp only [Option.some.injEq, Prod.mk.injEq] at h
      obtain ⟨p1, p2⟩ := rbcOut_exprs x h1
      obtain ⟨q1, q2⟩ := rbcsOut_exprs xs h2
      rw [← h.1, ← h.2, exprsRBCs, List.map_append, argExprs_append, p1, q1]
      exact ⟨rfl, uses_append p2 q2⟩
    · cases h
end

theorem sheetOut_exprs {args : Args} : ∀ (s : Sheet) {out : OSheet} {used : List Str},
    sheetOut args s = some (out, used) → (exprsOut out).map some = argExprs args used ∧ Uses (texts s) used
  | [], out, used, h => by
    simp only [sheetOut, Option.some.injEq, Prod.mk.injEq] at h
    rw [← h.1, ← h.2]
    exact ⟨rfl, .nil⟩
  | .block c b :: xs, out, used, h => by
    simp only [sheetOut, scopeOut] at h
    split at h
    · rename_i a u b' v h0 h2
      simp only [Option.some.injEq, Prod.mk.injEq] at h
      split at h0
      · rename_i c1 u1 b1 v1 h3 h4
        simp only [Option.some.injEq, Prod.mk.injEq] at h0
        obtain ⟨p1, p2⟩ := selsOut_exprs h3
        obtain ⟨q1, q2⟩ := rbcsOut_exprs b h4
        obtain ⟨r1, r2⟩ := sheetOut_exprs xs h2
        rw [← h.1, ← h.2, ← h0.1, ← h0.2]
        simp only [exprsOut] at r1
        simp only [exprsOut, List.map_cons, scopeRBC, exprsRBCs, exprsRBC, List.map_append, argExprs_append, p1, q1, r1]
        exact ⟨by simp, uses_append (uses_append p2 q2) r2⟩
      · cases h0
    · cases h
  | .rule c b :: xs, out, used, h => by
    simp only [sheetOut, scopeOut] at h
    split at h
    · rename_i a u b' v h0 h2
      simp only [Option.some.injEq, Prod.mk.injEq] at h
      split at h0
      · rename_i c1 u1 b1 v1 h3 h4
        simp only [Option.some.injEq, Prod.mk.injEq] at h0
        obtain ⟨p1, p2⟩ := strsOut_exprs h3
        obtain ⟨q1, q2⟩ := rbcsOut_exprs b h4
        obtain ⟨r1, r2⟩ := sheetOut_exprs xs h2
        rw [← h.1, ← h.2, ← h0.1, ← h0.2]
        simp only [exprsOut] at r1
        simp only [exprsOut, List.map_cons, scopeRBC, exprsRBCs, exprsRBC, List.map_append, argExprs_append, p1, q1, r1]
        exact ⟨by simp, uses_append (uses_append p2 q2) r2⟩
      · cases h0
    · cases h

end Literal
