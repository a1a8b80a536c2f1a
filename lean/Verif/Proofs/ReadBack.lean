import Verif.Spec.ReadBack
import Verif.Proofs.Browser
import Verif.Proofs.Readable

/-! # Declarations that are read back -/

namespace ReadBackP
open Spec GroupsP Text BrowserP

/-- `runText` on a text that is followed by another one. -/
def runLook : At → Str → Str → Option At
  | q, [], _ => some q
  | q, c :: s, y =>
    if q = .out 0 ∧ (c = '{' ∨ c = '}' ∨ c = ';') then none
    else if q.isOut = true ∧ c = '/' ∧ (s ++ y).head? = some '*' then none
    else
      match q.next c with
      | none => none
      | some q' => runLook q' s y

theorem look_text {y : Str} (hy : y.head? ≠ some '*') : ∀ (x : Str) (q : At), runLook q x y = runText q x
  | [], q => rfl
  | c :: x, q => by
    have : (x ++ y).head? = some '*' ↔ x.head? = some '*' := by
      cases x with
      | nil => simp [hy]
      | cons d x => simp
    rw [runLook, runText]
    simp only [this]
    cases q.next c with
    | none => rfl
    | some q' => simp only [look_text hy x q']

theorem look_snoc {c : Char} {y : Str} : ∀ (x : Str) (q : At), runLook q (x ++ [c]) y =
    (runLook q x (c :: y)).bind (fun q' => runLook q' [c] y)
  | [], q => rfl
  | d :: x, q => by
    rw [List.cons_append, runLook, runLook, show x ++ [c] ++ y = x ++ c :: y from by simp]
    split
    · rfl
    split
    · rfl
    cases q.next d with
    | none => rfl
    | some q' => exact look_snoc x q'

theorem run_split : ∀ (x y : Str) (q r : At), runText q (x ++ y) = some r →
    ∃ q', runText q x = some q' ∧ runText q' y = some r
  | [], y, q, r, h => ⟨q, rfl, h⟩
  | c :: x, y, q, r, h => by
    rw [List.cons_append, runText] at h
    split at h
    · cases h
    rename_i h1
    split at h
    · cases h
    rename_i h2
    cases hn : q.next c with
    | none => rw [hn] at h; cases h
    | some q1 =>
      rw [hn] at h
      obtain ⟨q', h3, h4⟩ := run_split x y q1 r h
      refine ⟨q', ?_, h4⟩
      rw [runText, if_neg h1, if_neg, hn]
      · exact h3
      · rintro ⟨a, b, e⟩
        apply h2
        refine ⟨a, b, ?_⟩
        cases x with
        | nil => cases e
        | cons d x => exact e

/-- Not after a backslash, and quotes are quotes. -/
def Calm : At → Prop
  | .out _ => True
  | .str q _ => q = '"' ∨ q = '\''
  | _ => False

theorem run_ws : ∀ {w : Str} {q q' : At}, Ws w → Calm q → runText q w = some q' → q' = q
  | [], q, q', _, _, h => by simpa [runText] using h.symm
  | c :: w, q, q', hw, hq, h => by
    have hc : Str.isWhitespace c = true := hw c (by simp)
    rw [runText] at h
    split at h
    · cases h
    split at h
    · cases h
    cases hn : q.next c with
    | none => rw [hn] at h; cases h
    | some q1 =>
      rw [hn] at h
      have : q1 = q := by
        cases q with
        | out n => rw [ws_next hc] at hn; cases hn; rfl
        | str a n =>
          simp only [At.next] at hn
          split at hn
          · rename_i e; subst e; exfalso; rcases hq with rfl | rfl <;> (revert hc; decide)
          split at hn
          · rename_i e; subst e; exfalso; revert hc; decide
          split at hn
          · cases hn
          · cases hn; rfl
        | _ => exact hq.elim
      subst this
      exact run_ws (fun d hd => hw d (by simp [hd])) hq h

theorem quote_last : ∀ {t : Str} {q q' : At}, QuoteOk q → runText q t = some q' → (t = [] → Calm q) →
    t.getLast? ≠ some '\\' → Calm q'
  | [], q, q', _, h, h1, _ => by
    simp only [runText, Option.some.injEq] at h
    subst h; exact h1 rfl
  | c :: t, q, q', hq, h, _, hl => by
    rw [runText] at h
    split at h
    · cases h
    split at h
    · cases h
    cases hn : q.next c with
    | none => rw [hn] at h; cases h
    | some q1 =>
      rw [hn] at h
      refine quote_last (quoteOk_next hq hn) h ?_ ?_
      · rintro rfl
        have hc : c ≠ '\\' := by rintro rfl; exact hl rfl
        have hq1 := quoteOk_next hq hn
        cases q <;> simp only [At.next] at hn <;> (repeat' split at hn) <;> simp_all [Calm, QuoteOk] <;> (subst hn; simp_all [Calm, QuoteOk])
      · cases t with
        | nil => simp
        | cons d t => simpa [List.getLast?_cons_cons] using hl

/-- A header as the reader finds it. -/
def HeaderRead (h : Str) : Prop := ∃ acc, Str.trim acc = h ∧ runText (.out 0) acc = some (.out 0)

/-- A declaration as the reader finds it. -/
def DeclRead (d : Decl) : Prop :=
  ∃ acc k v, splitColon acc = some (k, v) ∧ Str.trim k = d.key ∧ Str.trim v = d.value ∧
    runText (.out 0) acc = some (.out 0)

theorem read_found : ∀ (s : Str) (st : List Str) (acc : Str) (q : At) (ds : List Decl) (st' : List Str),
    runLook (.out 0) acc s = some q → Plain q → findsComment q s = false → readCss st acc q s = some (ds, st') →
    ∀ d ∈ ds, (∀ h ∈ d.path, h ∈ st ∨ HeaderRead h) ∧ DeclRead d
  | [], st, acc, q, ds, st', _, hp, _, h => by
    have : ds = [] := by
      cases q <;> first | exact hp.elim | (simp only [readCss] at h; split at h <;> simp_all)
    subst this; simp
  | c :: s, st, acc, q, ds, st', hr, hp, hn, h => by
    by_cases h1 : q = .out 0 ∧ c = '{'
    · obtain ⟨rfl, rfl⟩ := h1
      rw [readCss, if_pos ⟨rfl, rfl⟩] at h
      rotate_left
      · intros; contradiction
      · intros; contradiction
      · intros; contradiction
      have ih := read_found s _ [] (.out 0) ds st' rfl trivial (by simpa [findsComment] using hn) h
      intro d hd
      refine ⟨?_, (ih d hd).2⟩
      intro x hx
      rcases (ih d hd).1 x hx with hm | hm
      · rcases List.mem_append.1 hm with hm | hm
        · exact .inl hm
        · simp only [List.mem_singleton] at hm
          exact .inr ⟨acc, hm.symm, by rwa [look_text (by simp)] at hr⟩
      · exact .inr hm
    by_cases h2 : q = .out 0 ∧ c = '}'
    · obtain ⟨rfl, rfl⟩ := h2
      rw [readCss, if_neg (by decide), if_pos ⟨rfl, rfl⟩] at h
      rotate_left
      · intros; contradiction
      · intros; contradiction
      · intros; contradiction
      split at h
      · have ih := read_found s _ [] (.out 0) ds st' rfl trivial (by simpa [findsComment] using hn) h
        intro d hd
        refine ⟨?_, (ih d hd).2⟩
        intro x hx
        rcases (ih d hd).1 x hx with hm | hm
        · exact .inl (List.dropLast_subset _ hm)
        · exact .inr hm
      · cases h
    by_cases h3 : q = .out 0 ∧ c = ';'
    · obtain ⟨rfl, rfl⟩ := h3
      rw [readCss, if_neg (by decide), if_neg (by decide), if_pos ⟨rfl, rfl⟩] at h
      rotate_left
      · intros; contradiction
      · intros; contradiction
      · intros; contradiction
      cases hc : splitColon acc with
      | none => rw [hc] at h; cases h
      | some p =>
        obtain ⟨k, v⟩ := p
        rw [hc] at h
        dsimp only at h
        cases hr' : readCss st [] (.out 0) s with
        | none => rw [hr'] at h; cases h
        | some p =>
          obtain ⟨es, st1⟩ := p
          rw [hr'] at h
          simp only [Option.some.injEq, Prod.mk.injEq] at h
          obtain ⟨rfl, rfl⟩ := h
          have ih := read_found s _ [] (.out 0) es _ rfl trivial (by simpa [findsComment] using hn) hr'
          intro d hd
          rcases List.mem_cons.1 hd with rfl | hd
          · exact ⟨fun x hx => .inl hx, acc, k, v, hc, rfl, rfl, by rwa [look_text (by simp)] at hr⟩
          · exact ih d hd
    have h5 : ¬ (q = .out 0 ∧ (c = '{' ∨ c = '}' ∨ c = ';')) := by
      rintro ⟨e, e' | e' | e'⟩
      · exact h1 ⟨e, e'⟩
      · exact h2 ⟨e, e'⟩
      · exact h3 ⟨e, e'⟩
    rw [findsComment, if_neg h5] at hn
    have h4 : ¬ (q.isOut = true ∧ c = '/' ∧ s.head? = some '*') := by
      intro e; rw [if_pos e] at hn; cases hn
    rw [if_neg h4] at hn
    rw [readCss_cons hp h5 h4] at h
    cases hq : q.next c with
    | none => rw [hq] at h; cases h
    | some q1 =>
      rw [hq] at h
      rw [hq] at hn
      refine read_found s st (acc ++ [c]) q1 ds st' ?_ ?_ hn h
      · rw [look_snoc, hr]
        simp only [Option.bind_some, runLook]
        rw [if_neg h5, if_neg (by simpa using h4), hq]
      · cases q <;> simp only [At.next] at hq <;> (repeat' split at hq) <;> simp_all [Plain] <;> (subst hq; trivial)

theorem run_mid {p t w : Str} {q : At} (hp : Ws p) (hw : Ws w) (ht : t.getLast? ≠ some '\\')
    {q0 : At} (h0 : Calm q0) (h : runText q0 (p ++ t ++ w) = some q) : runText q0 t = some q := by
  obtain ⟨q2, h, h3⟩ := run_split _ _ _ _ h
  obtain ⟨q1, h1, h2⟩ := run_split _ _ _ _ h
  obtain rfl := run_ws hp h0 h1
  have hq : QuoteOk q1 := by cases q1 <;> first | exact h0.elim | trivial | exact h0
  rw [run_ws hw (quote_last hq h2 (fun _ => h0) ht) h3, h2]

theorem header_whole {h : Str} (hr : HeaderRead h) (hl : h.getLast? ≠ some '\\') : Whole h := by
  obtain ⟨acc, rfl, h1⟩ := hr
  obtain ⟨p, w, e, hp, hw⟩ := ReadableP.trim_split (a := acc) rfl
  rw [e] at h1
  exact ⟨run_mid hp hw hl trivial h1, ShapeP.trim_idem _⟩

theorem splitColon_some : ∀ {acc k v : Str}, splitColon acc = some (k, v) → acc = k ++ ':' :: v ∧ ':' ∉ k
  | [], k, v, h => by cases h
  | c :: s, k, v, h => by
    by_cases hc : c = ':'
    · subst hc
      simp only [splitColon, Option.some.injEq, Prod.mk.injEq] at h
      obtain ⟨rfl, rfl⟩ := h
      simp
    · rw [splitColon] at h
      · cases hs : splitColon s with
        | none => rw [hs] at h; cases h
        | some p =>
          obtain ⟨k', v'⟩ := p
          rw [hs] at h
          simp only [Option.map_some, Option.some.injEq, Prod.mk.injEq] at h
          obtain ⟨rfl, rfl⟩ := h
          obtain ⟨e, hk⟩ := splitColon_some hs
          refine ⟨by rw [e]; rfl, ?_⟩
          simp only [List.mem_cons, not_or]
          exact ⟨fun e => hc e.symm, hk⟩
      · exact fun e => hc e

theorem calm_colon {q : At} (h : Calm q) : q.next ':' = some q := by
  cases q with
  | out n => simp [At.next]
  | str a n => rcases h with rfl | rfl <;> simp [At.next]
  | _ => exact h.elim

theorem calm_space {q : At} (h : Calm q) : q.next ' ' = some q := by
  cases q with
  | out n => simp [At.next]
  | str a n => rcases h with rfl | rfl <;> simp [At.next]
  | _ => exact h.elim

theorem decl_whole {d : Decl} (hr : DeclRead d) (hk : d.key.getLast? ≠ some '\\') (hv : d.value.getLast? ≠ some '\\') :
    runText (.out 0) (d.key ++ c! ": " ++ d.value) = some (.out 0) ∧
      ':' ∉ d.key ∧ Str.trim d.key = d.key ∧ Str.trim d.value = d.value := by
  obtain ⟨acc, k, v, h1, h2, h3, h4⟩ := hr
  obtain ⟨rfl, hc⟩ := splitColon_some h1
  obtain ⟨p, w, e, hp, hw⟩ := ReadableP.trim_split h2
  obtain ⟨p', w', e', hp', hw'⟩ := ReadableP.trim_split h3
  refine ⟨?_, ?_, by rw [← h2, ShapeP.trim_idem], by rw [← h3, ShapeP.trim_idem]⟩
  · obtain ⟨q, hq, h4⟩ := run_split _ _ _ _ h4
    rw [e] at hq
    have hq' := run_mid (q0 := .out 0) hp hw hk trivial hq
    have hcalm : Calm q := quote_last (q := .out 0) trivial hq' (fun _ => trivial) hk
    have hrun : runText q (':' :: v) = runText q v := by
      rw [runText, if_neg (by simp), if_neg (by rintro ⟨-, e, -⟩; revert e; decide), calm_colon hcalm]
    rw [hrun, e'] at h4
    have hv' := run_mid hp' hw' hv hcalm h4
    rw [List.append_assoc, runText_append (by simp) _ hq']
    simp only [List.cons_append, List.nil_append]
    rw [runText, if_neg (by simp), if_neg (by rintro ⟨-, e, -⟩; revert e; decide), calm_colon hcalm]
    simp only
    rw [runText, if_neg (by simp), if_neg (by rintro ⟨-, e, -⟩; revert e; decide), calm_space hcalm]
    exact hv'
  · intro hm
    apply hc
    rw [e]; simp [hm]

/-- A declaration that is read is whole. -/
theorem reads_whole {css : Str} {ds : List Decl} (hn : findsComment (.out 0) css = false) (h : browserReads css = some ds)
    (d : Decl) (hd : d ∈ ds) (hb : NoFinalBackslash d) : WholeDecl d := by
  rw [browserReads] at h
  split at h
  · rename_i ds' hr
    cases h
    obtain ⟨h1, h2⟩ := read_found css [] [] (.out 0) ds [] rfl trivial hn hr d hd
    refine ⟨?_, decl_whole h2 hb.2.1 hb.2.2⟩
    intro x hx
    rcases h1 x hx with hm | hm
    · cases hm
    · exact header_whole hm (hb.1 x hx)
  · cases h

/-- Lines that are whole are read back. -/
def LineOk (k v : Str) : Prop :=
  runText (.out 0) (k ++ c! ": " ++ v) = some (.out 0) ∧ ':' ∉ k ∧ Str.trim k = k ∧ Str.trim v = v

theorem readCss_lines : ∀ (evs : List Ev) (st st' : List Str) (obs : List Obs) (acc : Str),
    Ws acc → readEvents st evs = some (obs, st') →
    (∀ h, Ev.opn h ∈ evs → Whole h) →
    (∀ k v, Ev.decl k v ∈ evs → LineOk k v) →
    readCss st acc (.out 0) (layout st.length evs) = some (seenDecls obs, st')
  | [], st, st', obs, acc, hw, hr, _, _ => by
    simp only [readEvents, Option.some.injEq, Prod.mk.injEq] at hr
    obtain ⟨rfl, rfl⟩ := hr
    simp [layout, readCss, trim_ws hw, seenDecls]
  | .opn x :: evs, st, st', obs, acc, hw, hr, h1, h2 => by
    simp only [readEvents] at hr
    cases hr' : readEvents (st ++ [x]) evs with
    | none => simp [hr'] at hr
    | some p =>
      simp only [hr', Option.some.injEq, Prod.mk.injEq] at hr
      obtain ⟨rfl, rfl⟩ := hr
      have hx := h1 x (by simp)
      have ih := readCss_lines evs _ _ _ (c! "\n") (by decide) hr' (fun h hh => h1 h (by simp [hh]))
        (fun k v hh => h2 k v (by simp [hh]))
      simp only [layout, List.append_assoc]
      rw [readCss_ws _ _ _ _ (ws_indent _), readCss_append _ _ (by simp) _ _ _ _ hx.1]
      rw [show c! " {\n" ++ layout (st.length + 1) evs =
        c! " " ++ ('{' :: (c! "\n" ++ layout (st.length + 1) evs)) from rfl]
      rw [readCss_ws _ _ (c! " ") _ (by decide), readCss, if_pos ⟨rfl, rfl⟩]
      rotate_left
      · intros; contradiction
      · intros; contradiction
      · intros; contradiction
      rw [trim_append_ws _ (by decide), trim_ws_append _ (hw.append (ws_indent _)), hx.2]
      rw [readCss_ws _ _ (c! "\n") _ (by decide)]
      rw [List.length_append] at ih
      have : seenDecls (.enter (st ++ [x]) :: p.1) = seenDecls p.1 := rfl
      rw [this]
      exact ih
  | .cls :: evs, st, st', obs, acc, hw, hr, h1, h2 => by
    simp only [readEvents] at hr
    split at hr
    · simp at hr
    · rename_i hne
      have ih := readCss_lines evs _ _ _ (c! "\n") (by decide) hr (fun h hh => h1 h (by simp [hh]))
        (fun k v hh => h2 k v (by simp [hh]))
      simp only [layout, List.append_assoc]
      rw [readCss_ws _ _ _ _ (ws_indent _)]
      rw [show c! "}\n" ++ layout (st.length - 1) evs =
        '}' :: (c! "\n" ++ layout (st.length - 1) evs) from rfl]
      rw [readCss, if_neg (by decide), if_pos ⟨rfl, rfl⟩,
        if_pos ⟨trim_ws (hw.append (ws_indent _)), hne⟩]
      rotate_left
      · intros; contradiction
      · intros; contradiction
      · intros; contradiction
      rw [readCss_ws _ _ (c! "\n") _ (by decide)]
      rw [List.length_dropLast] at ih
      exact ih
  | .decl k v :: evs, st, st', obs, acc, hw, hr, h1, h2 => by
    simp only [readEvents] at hr
    cases hr' : readEvents st evs with
    | none => simp [hr'] at hr
    | some p =>
      simp only [hr', Option.some.injEq, Prod.mk.injEq] at hr
      obtain ⟨rfl, rfl⟩ := hr
      obtain ⟨hl, hkc, hkt, hvt⟩ := h2 k v (by simp)
      have ih := readCss_lines evs _ _ _ (c! "\n") (by decide) hr' (fun h hh => h1 h (by simp [hh]))
        (fun k v hh => h2 k v (by simp [hh]))
      rw [show layout st.length (.decl k v :: evs) = indent st.length ++ ((k ++ c! ": " ++ v) ++ (';' :: (c! "\n" ++ layout st.length evs)))
        from by simp [layout]]
      rw [readCss_ws _ _ _ _ (ws_indent _), readCss_append _ _ (by simp) _ _ _ _ hl]
      rw [readCss, if_neg (by decide), if_neg (by decide), if_pos ⟨rfl, rfl⟩]
      rotate_left
      · intros; contradiction
      · intros; contradiction
      · intros; contradiction
      have hsplit : splitColon (acc ++ indent st.length ++ (k ++ c! ": " ++ v)) =
          some (acc ++ indent st.length ++ k, c! " " ++ v) := by
        have := splitColon_append (c! " " ++ v) (acc ++ indent st.length ++ k) (by
          simp only [List.mem_append, not_or]
          exact ⟨⟨colon_ws hw, colon_ws (ws_indent _)⟩, hkc⟩)
        rw [← this]; congr 1; simp
      rw [hsplit]
      dsimp only
      rw [readCss_ws _ _ (c! "\n") _ (by decide)]
      rw [show ([] : Str) ++ c! "\n" = c! "\n" from rfl, ih]
      have e1 : Str.trim (acc ++ indent st.length ++ k) = k := by
        rw [trim_ws_append _ (hw.append (ws_indent _)), hkt]
      have e2 : Str.trim (c! " " ++ v) = v := by rw [trim_ws_append _ (by decide), hvt]
      rw [e1, e2]; rfl

theorem finds_append {t : Str} (ht : t.head? ≠ some '*') : ∀ (x : Str) {q q' : At},
    runText q x = some q' → findsComment q (x ++ t) = findsComment q' t
  | [], q, q', h => by
    simp only [runText, Option.some.injEq] at h
    subst h; rfl
  | c :: x, q, q', h => by
    rw [runText] at h
    split at h
    · cases h
    rename_i h1
    split at h
    · cases h
    rename_i h2
    split at h
    · cases h
    rename_i q1 h3
    rw [List.cons_append, findsComment, if_neg h1, if_neg, h3]
    · exact finds_append ht x h
    · rintro ⟨a, b, e⟩
      cases x with
      | nil => exact ht e
      | cons d x => exact h2 ⟨a, b, e⟩

theorem finds_ws {w : Str} (hw : Ws w) (t : Str) : findsComment (.out 0) (w ++ t) = findsComment (.out 0) t := by
  induction w with
  | nil => rfl
  | cons c w ih =>
    have hc : Str.isWhitespace c = true := hw c (by simp)
    rw [List.cons_append, findsComment, if_neg, if_neg, ws_next hc]
    · exact ih (fun d hd => hw d (by simp [hd]))
    · rintro ⟨-, rfl, -⟩; revert hc; decide
    · rintro ⟨-, rfl | rfl | rfl⟩ <;> (revert hc; decide)

theorem finds_lines : ∀ (evs : List Ev) (n : Nat), (∀ h, Ev.opn h ∈ evs → Whole h) →
    (∀ k v, Ev.decl k v ∈ evs → LineOk k v) → findsComment (.out 0) (layout n evs) = false
  | [], n, _, _ => rfl
  | .opn x :: evs, n, h1, h2 => by
    have ih := finds_lines evs (n + 1) (fun h hh => h1 h (by simp [hh])) (fun k v hh => h2 k v (by simp [hh]))
    rw [show layout n (.opn x :: evs) = indent n ++ (x ++ (c! " " ++ ('{' :: (c! "\n" ++ layout (n + 1) evs)))) from by
      simp [layout]]
    rw [finds_ws (ws_indent _), finds_append (by simp) _ (h1 x (by simp)).1, finds_ws (by decide), findsComment,
      if_pos ⟨rfl, by simp⟩, finds_ws (by decide), ih]
  | .cls :: evs, n, h1, h2 => by
    have ih := finds_lines evs (n - 1) (fun h hh => h1 h (by simp [hh])) (fun k v hh => h2 k v (by simp [hh]))
    rw [show layout n (.cls :: evs) = indent (n - 1) ++ ('}' :: (c! "\n" ++ layout (n - 1) evs)) from by simp [layout]]
    rw [finds_ws (ws_indent _), findsComment, if_pos ⟨rfl, by simp⟩, finds_ws (by decide), ih]
  | .decl k v :: evs, n, h1, h2 => by
    have ih := finds_lines evs n (fun h hh => h1 h (by simp [hh])) (fun k v hh => h2 k v (by simp [hh]))
    rw [show layout n (.decl k v :: evs) = indent n ++ ((k ++ c! ": " ++ v) ++ (';' :: (c! "\n" ++ layout n evs)))
        from by simp [layout]]
    rw [finds_ws (ws_indent _), finds_append (by simp) _ (h2 k v (by simp)).1, findsComment,
      if_pos ⟨rfl, by simp⟩, finds_ws (by decide), ih]

/-- A sheet whose declarations are whole is read back. -/
theorem whole_reads (s : Sheet) (cls : Option Str) (hcls : ∀ c ∈ cls, ':' ∉ c) (hd : ∀ d ∈ decls cls s, WholeDecl d)
    (hk : ∀ k ∈ keyframes cls s, ∀ h ∈ k, Whole h) :
    browserReads (s.toStyleStr cls) = some (decls cls s) ∧ findsComment (.out 0) (s.toStyleStr cls) = false := by
  obtain ⟨evs, obs, h1, h2, h3⟩ := Text.sheet_spec s cls hcls
  have h4 : ∀ h, Ev.opn h ∈ evs → Whole h := by
    intro h hh
    obtain ⟨p, hp, hm⟩ := opn_mem h evs _ _ _ h2 hh
    rcases h3.only p hp with ⟨d, hd', hpre⟩ | ⟨k, hk', hpre⟩
    · exact (hd d hd').1 h (hpre.subset hm)
    · exact hk k hk' h (hpre.subset hm)
  have h5 : ∀ k v, Ev.decl k v ∈ evs → LineOk k v := by
    intro k v hh
    obtain ⟨d, hd', rfl, rfl⟩ := decl_mem k v evs _ _ _ h2 hh
    rw [h3.decls] at hd'
    exact (hd d hd').2
  have := readCss_lines evs [] [] obs [] (by decide) h2 h4 h5
  rw [List.length_nil, ← h1] at this
  rw [browserReads, this, h3.decls]
  exact ⟨rfl, by rw [h1]; exact finds_lines evs 0 h4 h5⟩

end ReadBackP
