import Verif.Proofs.Wide
import Verif.Proofs.Reparse
import Verif.Proofs.Filled
import Verif.Spec.Hollow

/-!
# Rendered sheets with and without empty animations

For C16: the text of a sheet is css in a wide layout, and the flag says whether there is an
animation without frames.
-/

open Spec Css GroupsP ReparseP WideP

namespace HollowP

theorem wide_before {g : Bool} {u : Str} {rest : Sheet} (h : WideLayout g u rest) {b : Str} (hb : Blank b) :
    WideLayout g (b ++ u) rest := by
  cases h with
  | nil w hw => exact .nil _ (blank_append hb hw)
  | decls _ ds u rest hne hds hu hr =>
    cases ds with
    | nil => exact absurd rfl hne
    | cons d ds =>
      have hd := hds d (by simp)
      have := WideLayout.decls g ({ d with before := b ++ d.before } :: ds) u rest (by simp)
        (by
          intro x hx
          rcases List.mem_cons.1 hx with rfl | hx
          · exact ⟨blank_append hb hd.1, hd.2⟩
          · exact hds x (by simp [hx])) hu hr
      simpa [DeclSrc.text, DeclSrc.bare] using this
  | block f g l body u content rest hne hl hb' hr =>
    cases l with
    | nil => exact absurd rfl hne
    | cons s l =>
      have hs := hl s (by simp)
      have := WideLayout.block f g ({ s with before := b ++ s.before } :: l) body u content rest (by simp)
        (by
          intro x hx
          rcases List.mem_cons.1 hx with rfl | hx
          · exact ⟨blank_append hb hs.1, hs.2⟩
          · exact hl x (by simp [hx])) hb' hr
      cases l <;> simpa [selsText, Str.join] using this
  | rule f g a body u content rest ha hb' hr =>
    have := WideLayout.rule f g { a with before := b ++ a.before } body u content rest
      ⟨blank_append hb ha.1, ha.2⟩ hb' hr
    simpa [AtSrc.text, AtSrc.value] using this
  | keyframes f g a body u frames rest ha hb' hr =>
    have := WideLayout.keyframes f g { a with before := b ++ a.before } body u frames rest
      ⟨blank_append hb ha.1, ha.2⟩ hb' hr
    simpa [AtSrc.text, AtSrc.value] using this

theorem blank_indent (d : Nat) : Blank (indent d) := blank_ws (indent_ascii d)

theorem blank_line (d : Nat) : Blank ('\n' :: indent d) := .ws _ _ (by decide) (blank_indent d)

/-- The text `X` reads as one more thing, with the flag `f`. -/
def Takes (f : Bool) (X : Str) : Prop :=
  ∃ t, ∀ g u rest, WideLayout g u rest → WideLayout (f || g) (X ++ u) (t :: rest)

theorem at_src {names : List Str} {t : Str} (h : CleanAt names t) (d : Nat) :
    ∃ a : AtSrc, a.Ok names ∧ a.text = indent d ++ t ++ c! " " := by
  obtain ⟨n, hn, r, rfl, -, h2, h3⟩ := h
  exact ⟨⟨indent d, n, r ++ c! " "⟩, ⟨blank_indent d, hn, by simp, by simpa using h2, by simpa using h3⟩, by
    simp [AtSrc.text]⟩

theorem takes_nest {f : Bool} {X : Str} (h : Takes f X) : ∀ (R : List Str) (d : Nat),
    (∀ r ∈ R, CleanAt conditionalNames r) → Takes f (nest d R X)
  | [], _, _ => h
  | a :: R, d, hR => by
    obtain ⟨t, ht⟩ := takes_nest h R (d + 1) (fun r hr => hR r (by simp [hr]))
    obtain ⟨src, h1, h2⟩ := at_src (hR a (by simp)) d
    refine ⟨.rule src.value [t.toRBC], fun g u rest hu => ?_⟩
    have hin := wide_before (b := c! "\n") (ht false (indent d) [] (.nil _ (blank_indent d))) (.ws _ _ (by decide) .nil)
    have := WideLayout.rule _ g src _ _ _ rest h1 hin (wide_before (b := c! "\n") hu (.ws _ _ (by decide) .nil))
    rw [h2, Bool.or_false] at this
    simpa [nest] using this

theorem body_wide' (d e : Nat) : ∀ (D : List (Str × Str)), (∀ p ∈ D, CleanDecl p.1 p.2) →
    WideBody false (((D.map (src d)).map DeclSrc.text).flatten ++ '\n' :: indent e) (attrs D)
  | [], _ => .nil _ (blank_line e)
  | p :: D, h => by
    have := WideBody.decl _ (src d p) _ _ (src_ok (h p (by simp))) (body_wide' d e D (fun q hq => h q (by simp [hq])))
    simpa [attrs, src] using this

theorem sels_src : ∀ (σs : List Str) (b : Str), σs ≠ [] → Blank b → (∀ x ∈ σs, PrintedSel x) →
    ∃ l : List SelSrc, l ≠ [] ∧ (∀ s ∈ l, s.Ok) ∧ selsText l = b ++ header σs ++ c! " "
  | [], _, h, _, _ => absurd rfl h
  | [s], b, _, hb, hs => by
    obtain ⟨h1, h2, h3, -⟩ := hs s (by simp)
    obtain ⟨c, hc, hc2⟩ := nonBlank_of_trim h2 h3
    refine ⟨[⟨b, s ++ c! " "⟩], by simp, ?_, by simp [selsText, header, Str.join]⟩
    intro x hx
    simp only [List.mem_singleton] at hx
    subst hx
    exact ⟨hb, HeadersP.SelText.append h1 (by decide), c, by simp [hc], hc2⟩
  | s :: s' :: t, b, _, hb, hs => by
    obtain ⟨l, e0, e1, e2⟩ := sels_src (s' :: t) (c! " ") (by simp) (.ws _ _ (by decide) .nil)
      (fun x hx => hs x (by simp [List.mem_cons.1 hx]))
    obtain ⟨h1, h2, h3, -⟩ := hs s (by simp)
    refine ⟨⟨b, s⟩ :: l, by simp, ?_, ?_⟩
    · intro x hx
      rcases List.mem_cons.1 hx with rfl | hx
      · exact ⟨hb, h1, nonBlank_of_trim h2 h3⟩
      · exact e1 x hx
    · cases l with
      | nil => exact absurd rfl e0
      | cons y l =>
        simp only [selsText, List.map_cons, Str.join, header] at e2 ⊢
        rw [e2]
        simp

theorem takes_decls {σs : List Str} {D : List (Str × Str)} (hne : σs ≠ []) (hs : ∀ x ∈ σs, PrintedSel x)
    (hD : ∀ p ∈ D, CleanDecl p.1 p.2) (n m : Nat) :
    Takes false (indent n ++ (header σs ++ c! " {" ++ bodyText m n D (c! "\n"))) := by
  obtain ⟨l, l0, l1, l2⟩ := sels_src σs (indent n) hne (blank_indent n) hs
  refine ⟨.block (l.map (fun s => [Str.trim s.sel])) (attrs D), fun g u rest hu => ?_⟩
  have := WideLayout.block false g l _ _ _ rest l0 l1 (body_wide' m n D hD)
    (wide_before (b := c! "\n") hu (.ws _ _ (by decide) .nil))
  have e := body_src m D (indent n ++ '}' :: '\n' :: u)
  rw [l2] at this
  have e2 : indent n ++ (header σs ++ c! " {" ++ bodyText m n D (c! "\n")) ++ u =
      indent n ++ header σs ++ c! " " ++ c! "{" ++ ('\n' :: (body m D ++ (indent n ++ '}' :: '\n' :: u))) := by
    simp [bodyText]
  rw [e2, e]
  simpa using this

theorem frame_src : ∀ (ps : List Str), ps ≠ [] → (∀ p ∈ ps, SelText p ∧ NonBlank p) →
    ∃ (s : Str) (l : List SelSrc), Str.join (c! ",") ps ++ c! " " = selsText (⟨[], s⟩ :: l) ∧ SelText s ∧ NonBlank s ∧
      ∀ x ∈ l, x.Ok
  | [], h, _ => absurd rfl h
  | [p], _, h => by
    obtain ⟨h1, c, hc, hc2⟩ := h p (by simp)
    exact ⟨p ++ c! " ", [], by simp [selsText, Str.join], HeadersP.SelText.append h1 (by decide), ⟨c, by simp [hc], hc2⟩, by simp⟩
  | p :: q :: ps, _, h => by
    obtain ⟨s, l, e1, e2, e3, e4⟩ := frame_src (q :: ps) (by simp) (fun x hx => h x (by simp [List.mem_cons.1 hx]))
    obtain ⟨h1, h2⟩ := h p (by simp)
    refine ⟨p, ⟨[], s⟩ :: l, ?_, h1, h2, ?_⟩
    · simp only [selsText, List.map_cons, Str.join] at e1 ⊢
      rw [← e1]
      simp
    · intro x hx
      rcases List.mem_cons.1 hx with rfl | hx
      · exact ⟨.nil, e2, e3⟩
      · exact e4 x hx

theorem frames_takes (d e : Nat) : ∀ (F : List Frame),
    (∀ f ∈ F, CleanFrame f.1 ∧ f.2 ≠ [] ∧ ∀ p ∈ f.2, CleanDecl p.1 p.2) → ∀ b, Blank b →
    ∃ frames, frames.isEmpty = F.isEmpty ∧ WideFrames false (b ++ F.flatMap (frameText d) ++ indent e) frames
  | [], _, b, hb => ⟨[], rfl, .nil _ (by simpa using blank_append hb (blank_indent e))⟩
  | f :: F, h, b, hb => by
    obtain ⟨fr, -, hfr⟩ := frames_takes d e F (fun x hx => h x (by simp [hx])) (c! "\n") (.ws _ _ (by decide) .nil)
    obtain ⟨⟨ps, hne, hp, hj, -⟩, hD0, hD⟩ := h f (by simp)
    obtain ⟨s, l, e1, e2, e3, e4⟩ := frame_src ps hne hp
    rw [← hj] at e1
    have := WideFrames.frame _ _ (b ++ indent d) s l _ _ _ fr (blank_append hb (blank_indent d)) e2 e3 e4
      (body_wide' (d + 1) d f.2 hD) hfr
    rw [← e1] at this
    have ho : ∀ t, onlyBlanks t (attrs f.2) = false := by
      intro t
      obtain ⟨k, D⟩ := f
      cases D with
      | nil => exact absurd rfl hD0
      | cons => simp [onlyBlanks, attrs]
    rw [ho] at this
    refine ⟨.rule [Str.trim (f.1 ++ c! " ")] (attrs f.2) :: fr, rfl, ?_⟩
    have e5 := body_src (d + 1) f.2 (indent d ++ '}' :: '\n' :: (F.flatMap (frameText d) ++ indent e))
    rw [List.flatMap_cons]
    have e6 : b ++ (frameText d f ++ F.flatMap (frameText d)) ++ indent e =
        b ++ indent d ++ f.1 ++ c! " " ++ c! "{" ++
          '\n' :: (body (d + 1) f.2 ++ (indent d ++ '}' :: '\n' :: (F.flatMap (frameText d) ++ indent e))) := by
      rw [List.append_assoc, List.append_assoc, frameText_eq]
      simp [frameTail, bodyText]
    rw [e6, e5]
    simpa using this

theorem takes_frames {k : Str} {F : List Frame} (hk : CleanAt [c! "@keyframes"] k)
    (hF : ∀ f ∈ F, CleanFrame f.1 ∧ f.2 ≠ [] ∧ ∀ p ∈ f.2, CleanDecl p.1 p.2) (n m : Nat) :
    Takes F.isEmpty (indent n ++ (k ++ c! " {\n" ++ F.flatMap (frameText m) ++ indent n ++ c! "}\n")) := by
  obtain ⟨a, a1, a2⟩ := at_src hk n
  obtain ⟨fr, f1, f2⟩ := frames_takes m n F hF (c! "\n") (.ws _ _ (by decide) .nil)
  refine ⟨.rule a.value fr, fun g u rest hu => ?_⟩
  have := WideLayout.keyframes _ g a _ _ fr rest a1 f2 (wide_before (b := c! "\n") hu (.ws _ _ (by decide) .nil))
  rw [a2, onlyBlanks, f1] at this
  simpa using this

theorem takes_group {g : Group} (h : g.Sound PrintedSel) : Takes g.hollow g.text := by
  cases g with
  | decls R σs D =>
    rw [decls_text]
    exact takes_nest (takes_decls h.2.1 h.2.2.1 h.2.2.2.2 _ _) R 0 h.1
  | frames R k F =>
    rw [frames_text]
    exact takes_nest (takes_frames h.2.1 h.2.2 _ _) R 0 h.1

theorem takes_groups : ∀ (gs : List Group), (∀ g ∈ gs, g.Sound PrintedSel) →
    ∃ s, WideLayout (gs.any Group.hollow) (gs.flatMap Group.text) s
  | [], _ => ⟨[], .nil _ .nil⟩
  | g :: gs, h => by
    obtain ⟨s, hs⟩ := takes_groups gs (fun x hx => h x (by simp [hx]))
    obtain ⟨t, ht⟩ := takes_group (h g (by simp))
    exact ⟨t :: s, ht _ _ _ hs⟩

theorem soundWith {x : RBC} (h : SoundScope x) : SoundWith CleanSel x := by
  induction h with
  | block sels content h1 h2 => exact .block sels content h1 h2
  | rule cond content h1 _ ih => exact .rule cond content h1 ih
  | keyframes cond frames h1 h2 => exact .keyframes cond frames h1 h2

theorem framesOf_nil : ∀ {xs : List RBC}, (∀ x ∈ xs, CleanFrameRule x) →
    (framesOf xs = [] ↔ ∀ fc content, .rule fc content ∈ xs → content = [])
  | [], _ => by simp [framesOf]
  | x :: xs, h => by
    obtain ⟨cond, content, rfl, -⟩ := h x (by simp)
    have ih := framesOf_nil (xs := xs) (fun y hy => h y (by simp [hy]))
    cases content with
    | nil =>
      rw [framesOf, ih]
      · constructor
        · intro h fc content hm
          rcases List.mem_cons.1 hm with hm | hm
          · cases hm; rfl
          · exact h _ _ hm
        · exact fun h fc content hm => h fc content (by simp [hm])
      · simp
    | cons y ys =>
      simp only [framesOf, List.cons_ne_nil, false_iff]
      exact fun h => by cases h cond (y :: ys) (by simp)

theorem not_both {t : Str} (h1 : CleanAt conditionalNames t) (h2 : CleanAt [c! "@keyframes"] t) : False :=
  not_at h1 (kf_prefix h2)

theorem hollow_iff {x : RBC} (h : SoundScope x) : hollowIn x = true ↔ EmptyAnimation x := by
  induction h with
  | block sels content h1 h2 =>
    constructor
    · intro h; cases h
    · intro h; cases h
  | rule cond content h1 _ ih =>
    have hk' : ¬ Str.startsWith (c! "@keyframes") cond.flatten = true :=
      fun h => not_at h1 (List.isPrefixOf_iff_prefix.1 h)
    rw [hollowIn, if_neg hk', hollowAll_any, List.any_eq_true]
    constructor
    · rintro ⟨x, hx, h⟩
      exact .inside _ _ x h1 hx ((ih x hx).1 h)
    · intro h
      cases h with
      | here _ _ h2 _ => exact (not_both h1 h2).elim
      | inside _ _ x _ hx h => exact ⟨x, hx, (ih x hx).2 h⟩
  | keyframes cond frames h1 h2 =>
    have hk' : Str.startsWith (c! "@keyframes") cond.flatten = true := List.isPrefixOf_iff_prefix.2 (kf_prefix h1)
    rw [hollowIn, if_pos hk', List.isEmpty_iff, framesOf_nil h2]
    constructor
    · exact fun h => .here _ _ h1 h
    · intro h
      cases h with
      | here _ _ _ h => exact h
      | inside _ _ x h3 _ _ => exact (not_both h3 h1).elim

/-- Rendered text is rejected exactly if there is an animation without declarations. -/
theorem rendered {s : Sheet} (hs : SoundSheet s) {cls : Option Str} (hc : ∀ c ∈ cls, CleanClass c) :
    parse (s.toStyleStr cls) = none ↔ ∃ x ∈ s, EmptyAnimation x.toRBC := by
  obtain ⟨gs, h1, h2, -, -, h5⟩ := sheet_groups_sound (printing_clean hc) (fun x hx => soundWith (hs x hx))
  obtain ⟨s', hs'⟩ := takes_groups gs h2
  have h6 : gs.any Group.hollow = true ↔ ∃ x ∈ s, EmptyAnimation x.toRBC := by
    rw [h5, hollowAll_any, List.any_eq_true]
    constructor
    · rintro ⟨y, hy, h⟩
      obtain ⟨x, hx, rfl⟩ := List.mem_map.1 hy
      exact ⟨x, hx, (hollow_iff (hs x hx)).1 h⟩
    · rintro ⟨x, hx, h⟩
      exact ⟨_, List.mem_map_of_mem hx, (hollow_iff (hs x hx)).2 h⟩
  rw [h1, wide_parse hs', ← h6]
  cases gs.any Group.hollow <;> simp

theorem clean_scope {x : RBC} (h : SoundScope x) (he : ¬ EmptyAnimation x) : CleanScope x := by
  induction h with
  | block sels content h1 h2 => exact .block _ _ h1 h2
  | rule cond content h1 _ ih => exact .rule _ _ h1 (fun x hx => ih x hx (fun h => he (.inside _ _ x h1 hx h)))
  | keyframes cond frames h1 h2 =>
    refine .keyframes _ _ h1 h2 ?_
    by_cases hx : ∀ fc content, .rule fc content ∈ frames → content = []
    · exact absurd (.here _ _ h1 hx) he
    · simp only [Classical.not_forall] at hx
      obtain ⟨fc, content, hm, hn⟩ := hx
      cases content with
      | nil => exact absurd rfl hn
      | cons y ys =>
        obtain ⟨_, _, e, -, h4⟩ := h2 _ hm
        cases e
        obtain ⟨k, v, rfl, -⟩ := h4 y (by simp)
        exact ⟨fc, k, v, ys, hm⟩

theorem sound_layout {t : Str} {s : Sheet} (h : Layout t s) : PlainSheet s → SoundSheet s := by
  induction h with
  | nil => intro _ x hx; cases hx
  | decls ds u rest _ hds _ _ ih =>
    intro hf x hx
    rcases List.mem_cons.1 hx with rfl | hx
    · refine .block _ _ (by simp) ?_
      intro x hx
      obtain ⟨d, hd, rfl⟩ := List.mem_map.1 hx
      exact .attr _ _ (FilledP.clean_decl (hds d hd))
    · exact ih hf.2 x hx
  | block l body u content rest _ hl hb _ ih =>
    intro hf x hx
    rcases List.mem_cons.1 hx with rfl | hx
    · refine .block _ _ ?_ (FilledP.clean_body hb)
      intro s hs
      obtain ⟨d, hd, rfl⟩ := List.mem_map.1 hs
      refine ⟨?_, hf.1.1 _ hs, ?_⟩
      · simpa using FilledP.selText_trim (hl d hd).2.1
      · simpa using ShapeP.trim_idem d.sel
    · exact ih hf.2 x hx
  | rule a body u content rest ha _ _ ih1 ih2 =>
    intro hf x hx
    rcases List.mem_cons.1 hx with rfl | hx
    · refine .rule _ _ (FilledP.clean_at ha) ?_
      intro x hx
      obtain ⟨y, hy, rfl⟩ := List.mem_map.1 hx
      exact ih1 hf.1.2 y hy
    · exact ih2 hf.2 x hx
  | keyframes a body u frames rest ha _ _ _ ih =>
    intro hf x hx
    rcases List.mem_cons.1 hx with rfl | hx
    · have h1 : c! "@keyframes " <+: a.value.flatten := by
        have := ha.2.1
        simp only [List.mem_cons, List.not_mem_nil, or_false] at this
        simp [AtSrc.value, this]
      exact .keyframes _ _ (FilledP.clean_at ha) (hf.1.1 h1)
    · exact ih hf.2 x hx

end HollowP
