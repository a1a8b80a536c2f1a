import Verif.Proofs.Layout
import Verif.Spec.Css

/-! # Css texts one after the other -/

namespace JoinP
open Nom NomP Css ParserP LexP ShapeP DeclsP HeadersP Spec ReparseP LayoutP

/-- Blanks in front belong to the text. -/
theorem layout_blank {w v : Str} {t : Sheet} (hw : Blank w) (h : Layout v t) : Layout (w ++ v) t := by
  cases h with
  | nil b hb => exact .nil _ (GrammarP.blank_append hw hb)
  | decls ds u rest hne hok hd hu =>
    cases ds with
    | nil => exact absurd rfl hne
    | cons d ds =>
      have := Layout.decls ({ d with before := w ++ d.before } :: ds) u rest (by simp) (by
        intro x hx
        rcases List.mem_cons.1 hx with rfl | hx
        · obtain ⟨h1, h2⟩ := hok d (by simp)
          exact ⟨GrammarP.blank_append hw h1, h2⟩
        · exact hok x (by simp [hx])) hd hu
      simpa [DeclSrc.text, DeclSrc.bare] using this
  | block l body u content rest hne hok hb hu =>
    cases l with
    | nil => exact absurd rfl hne
    | cons s l =>
      have := Layout.block ({ s with before := w ++ s.before } :: l) body u content rest (by simp) (by
        intro x hx
        rcases List.mem_cons.1 hx with rfl | hx
        · obtain ⟨h1, h2⟩ := hok s (by simp)
          exact ⟨GrammarP.blank_append hw h1, h2⟩
        · exact hok x (by simp [hx])) hb hu
      have e : selsText ({ s with before := w ++ s.before } :: l) = w ++ selsText (s :: l) := by
        cases l <;> simp [selsText, Str.join]
      rw [e] at this
      simpa using this
  | rule a body u content rest ha hb hu =>
    have := Layout.rule { a with before := w ++ a.before } body u content rest
      ⟨GrammarP.blank_append hw ha.1, ha.2⟩ hb hu
    simpa [AtSrc.text, AtSrc.value] using this
  | keyframes a body u frames rest ha hb hc hu =>
    have := Layout.keyframes { a with before := w ++ a.before } body u frames rest
      ⟨GrammarP.blank_append hw ha.1, ha.2⟩ hb hc hu
    simpa [AtSrc.text, AtSrc.value] using this

theorem like_iff {x : Str} :
    StartsLikeDecl x ↔ ∃ k b' t, Ident k ∧ Blank b' ∧ spRest x = k ++ (b' ++ ':' :: t) := by
  constructor
  · rintro ⟨b, k, b', t, h1, h2, h3, rfl⟩
    refine ⟨k, b', t, h2, h3, ?_⟩
    rw [List.append_assoc, List.append_assoc, spRest_blank h1, ident_nonblank h2]
  · rintro ⟨k, b', t, h2, h3, e⟩
    obtain ⟨b, hb, eb⟩ := GrammarP.spRest_text x
    exact ⟨b, k, b', t, hb, h2, h3, by rw [eb, e]; simp⟩

theorem like_blank {w v : Str} (hw : Blank w) (h : StartsLikeDecl (w ++ v)) : StartsLikeDecl v := by
  rw [like_iff, spRest_blank hw] at h
  exact like_iff.2 h

theorem like_header {x : Str} (hx : HI x) (y e : Str) (h : StartsLikeDecl (x ++ '{' :: (y ++ e))) :
    StartsLikeDecl (x ++ '{' :: y) := by
  obtain ⟨k, b', t, hk, hb', es⟩ := like_iff.1 h
  have hH : H (y ++ e) (x ++ '{' :: (y ++ e)) := ⟨x, hx, rfl⟩
  have hno : NoIdent (b' ++ ':' :: t) := blank_noIdent hb' (by intro c hc; simp at hc; subst hc; decide)
  have h1 : H (y ++ e) (b' ++ ':' :: t) := pres_ident _ _ _ hH.sp (by rw [es]; exact ident_read hk hno)
  have h2 : H (y ++ e) (':' :: t) := by
    have := h1.sp
    rwa [spRest_blank hb', spRest_nonblank (by decide) (by decide)] at this
  obtain ⟨z, -, ez⟩ := h2.tail (by decide) (by decide) (by decide)
  obtain ⟨b, hb, eb⟩ := GrammarP.spRest_text (x ++ '{' :: (y ++ e))
  refine ⟨b, k, b', z ++ '{' :: y, hb, hk, hb', ?_⟩
  rw [es, ez] at eb
  refine List.append_cancel_right (bs := e) ?_
  simpa using eb

theorem like_at {names : List Str} (hnames : ∀ n ∈ names, ∃ m, n = '@' :: m) {a : AtSrc} (ha : a.Ok names) (r : Str) :
    ¬ StartsLikeDecl (a.text ++ '{' :: r) := by
  intro h
  obtain ⟨k, b', t, hk, -, e⟩ := like_iff.1 h
  obtain ⟨h1, m, hm⟩ := at_sp hnames ha ('{' :: r)
  rw [h1, hm] at e
  cases k with
  | nil => exact hk
  | cons c k =>
    simp only [List.cons_append, List.cons.injEq] at e
    have := hk.1
    rw [← e.1] at this
    revert this
    decide

/-- What does not begin like a declaration still does not when something follows. -/
theorem like_append {u : Str} {s : Sheet} (h : Layout u s) (hs : s ≠ []) (hd : ¬ StartsLikeDecl u) (v : Str) :
    ¬ StartsLikeDecl (u ++ v) := by
  cases h with
  | nil w hw => exact absurd rfl hs
  | decls ds u rest hne hok _ _ => exact absurd (decls_like hne hok u) hd
  | block l body u content rest hne hok _ _ =>
    intro h
    refine hd ?_
    have := like_header (selsText_hi l (fun x hx => srcI_of_ok (hok x hx))) (body ++ c! "}" ++ u) v (by simpa using h)
    simpa using this
  | rule a body u content rest ha _ _ =>
    have := like_at conditional_at ha (body ++ '}' :: (u ++ v))
    simpa using this
  | keyframes a body u frames rest ha _ _ _ =>
    have := like_at keyframes_at ha (body ++ '}' :: (u ++ v))
    simpa using this

theorem declsInAll_append (sel : Str → Str) (cur : Str) (rules : List Str) (outer : Option Str) :
    ∀ a b : List RBC, declsInAll sel cur rules outer (a ++ b) =
      declsInAll sel cur rules outer a ++ declsInAll sel cur rules outer b
  | [], b => by simp [declsInAll]
  | x :: a, b => by simp [declsInAll, declsInAll_append sel cur rules outer a b]

theorem keyframesInAll_append (sel : Str → Str) (cur : Str) (rules : List Str) (outer : Option Str) :
    ∀ a b : List RBC, keyframesInAll sel cur rules outer (a ++ b) =
      keyframesInAll sel cur rules outer a ++ keyframesInAll sel cur rules outer b
  | [], b => by simp [keyframesInAll]
  | x :: a, b => by simp [keyframesInAll, keyframesInAll_append sel cur rules outer a b]

/-- The same declarations and animations. -/
def Same (a b : Sheet) : Prop := ∀ cls, decls cls a = decls cls b ∧ Spec.keyframes cls a = Spec.keyframes cls b

theorem same_refl (a : Sheet) : Same a a := fun _ => ⟨rfl, rfl⟩

theorem same_cons (x : ScopeContent) {a b : Sheet} (h : Same a b) : Same (x :: a) (x :: b) := by
  intro cls
  obtain ⟨h1, h2⟩ := h cls
  unfold decls at *
  unfold Spec.keyframes at *
  simp [declsInAll, keyframesInAll, h1, h2]

theorem same_merge (a b : List RBC) (t : Sheet) : Same (.block [] (a ++ b) :: t) (.block [] a :: .block [] b :: t) := by
  intro cls
  simp [decls, Spec.keyframes, declsInAll, keyframesInAll, ScopeContent.toRBC, declsIn, keyframesIn, declsInAll_append,
    keyframesInAll_append]

/-- The sheet begins with loose declarations. -/
def Begins (t : Sheet) : Prop := ∃ content t', t = .block [] content :: t'

theorem begins_split {x : Str} {content : List RBC} {t : Sheet} (h : Layout x (.block [] content :: t)) :
    ∃ (ds : List DeclSrc) (u : Str), ds ≠ [] ∧ (∀ d ∈ ds, d.Ok) ∧ ¬ StartsLikeDecl u ∧ Layout u t ∧
      x = (ds.map DeclSrc.text).flatten ++ u ∧ content = ds.map (fun d => .attr d.key [d.value]) := by
  generalize hs : ScopeContent.block [] content :: t = s at h
  cases h with
  | nil w hw => cases hs
  | decls ds u rest hne hok hd hu =>
    cases hs
    exact ⟨ds, u, hne, hok, hd, hu, rfl, rfl⟩
  | block l body u content rest hne hok hb hu =>
    simp only [List.cons.injEq, ScopeContent.block.injEq] at hs
    exact absurd (by simpa using hs.1.1) hne
  | rule a body u content rest ha hb hu => simp at hs
  | keyframes a body u frames rest ha hb hc hu => simp at hs

theorem joined_cons {x : ScopeContent} {s : Sheet} (t : Sheet) (h : s = [] → EndsIn [x] → ¬ Begins t) :
    sheetsJoined (x :: s) t = x :: sheetsJoined s t := by
  rw [sheetsJoined.eq_def (x :: s) t]
  split
  · rename_i h1 h2 h3
    cases h3
  · rename_i a b t' h1
    cases h1
    exact absurd ⟨b, t', rfl⟩ (h rfl ⟨a, [], rfl⟩)
  · rename_i h1 _
    cases h1
    rfl

theorem joined_of_not {t : Sheet} : ∀ {s : Sheet}, (EndsIn s → ¬ Begins t) → sheetsJoined s t = s ++ t
  | [], _ => by unfold sheetsJoined; rfl
  | x :: s, h => by
    rw [joined_cons t (fun h1 h2 => h (by subst h1; exact h2)), joined_of_not (fun h1 => h (endsIn_cons h1))]
    rfl

theorem joined_same (t : Sheet) : ∀ s : Sheet, Same (sheetsJoined s t) (s ++ t)
  | [] => by unfold sheetsJoined; exact same_refl _
  | x :: s => by
    by_cases h : s = [] ∧ EndsIn [x] ∧ Begins t
    · obtain ⟨rfl, ⟨a, s', e⟩, ⟨b, t', rfl⟩⟩ := h
      obtain ⟨rfl, rfl⟩ : s' = [] ∧ x = .block [] a := by
        cases s' with
        | nil => cases e; exact ⟨rfl, rfl⟩
        | cons y s' => simp at e
      exact same_merge a b t'
    · rw [joined_cons t (fun h1 h2 h3 => h ⟨h1, h2, h3⟩)]
      exact same_cons x (joined_same t s)

theorem not_begins {v : Str} {t : Sheet} (h : Layout v t) (hv : ¬ StartsLikeDecl v) : ¬ Begins t := by
  rintro ⟨c, t', rfl⟩
  obtain ⟨ds, u, h1, h2, -, -, rfl, -⟩ := begins_split h
  exact hv (decls_like h1 h2 u)

theorem layout_join {v : Str} {t : Sheet} (hv : Layout v t) : ∀ {u : Str} {s : Sheet}, Layout u s →
    (StartsLikeDecl v → EndsIn s → Begins t) → Layout (u ++ v) (sheetsJoined s t) := by
  suffices ∀ (N : Nat) (u : Str) (s : Sheet), u.length ≤ N → Layout u s →
      (StartsLikeDecl v → EndsIn s → Begins t) → Layout (u ++ v) (sheetsJoined s t) from
    fun {u} {s} hu h => this u.length u s (Nat.le_refl _) hu h
  intro N
  induction N using Nat.strongRecOn with
  | ind N ih' =>
  intro u s hN hu h
  have ih : ∀ {u : Str} {s : Sheet}, u.length < N → Layout u s → (StartsLikeDecl v → EndsIn s → Begins t) →
      Layout (u ++ v) (sheetsJoined s t) := fun h1 h2 h3 => ih' _ h1 _ _ (Nat.le_refl _) h2 h3
  cases hu with
  | nil w hw => unfold sheetsJoined; exact layout_blank hw hv
  | decls ds u rest hne hok hd hu =>
    have hlen : u.length < ((ds.map DeclSrc.text).flatten ++ u).length := by
      cases ds with
      | nil => exact absurd rfl hne
      | cons d ds => simp [DeclSrc.text]; omega
    by_cases hr : rest = []
    · subst hr
      have hw := layout_nil hu
      by_cases hl : StartsLikeDecl v
      · obtain ⟨content, t', rfl⟩ := h hl ⟨_, [], rfl⟩
        obtain ⟨ds', u', h1, h2, h3, h4, h5, rfl⟩ := begins_split (layout_blank hw hv)
        have := Layout.decls (ds ++ ds') u' t' (by simp [hne]) (by
          intro x hx
          rcases List.mem_append.1 hx with hx | hx
          · exact hok x hx
          · exact h2 x hx) h3 h4
        rw [List.append_assoc, h5]
        simpa [sheetsJoined] using this
      · rw [joined_cons t (fun _ _ => not_begins hv hl)]
        have := Layout.decls ds (u ++ v) t hne hok (fun hx => hl (like_blank hw hx)) (layout_blank hw hv)
        simpa [sheetsJoined] using this
    · rw [joined_cons t (fun h1 => absurd h1 hr)]
      have := Layout.decls ds (u ++ v) _ hne hok (like_append hu hr hd v) (ih (by omega) hu (fun a b => h a (endsIn_cons b)))
      simpa using this
  | block l body u content rest hne hok hb hu =>
    have hlen : u.length < (selsText l ++ c! "{" ++ body ++ c! "}" ++ u).length := by simp; omega
    rw [joined_cons t (fun _ ⟨c, s', e⟩ => by
      exfalso
      cases s' with
      | nil => simp at e; exact hne e.1
      | cons y s' => simp at e)]
    have := Layout.block l body (u ++ v) content _ hne hok hb (ih (by omega) hu (fun a b => h a (endsIn_cons b)))
    simpa using this
  | rule a body u content rest ha hb hu =>
    have hlen : u.length < (a.text ++ c! "{" ++ body ++ c! "}" ++ u).length := by simp; omega
    rw [joined_cons t (fun _ ⟨c, s', e⟩ => by
      exfalso
      cases s' with
      | nil => simp at e
      | cons y s' => simp at e)]
    have := Layout.rule a body (u ++ v) content _ ha hb (ih (by omega) hu (fun a b => h a (endsIn_cons b)))
    simpa using this
  | keyframes a body u frames rest ha hb hc hu =>
    have hlen : u.length < (a.text ++ c! "{" ++ body ++ c! "}" ++ u).length := by simp; omega
    rw [joined_cons t (fun _ ⟨c, s', e⟩ => by
      exfalso
      cases s' with
      | nil => simp at e
      | cons y s' => simp at e)]
    have := Layout.keyframes a body (u ++ v) frames _ ha hb hc (ih (by omega) hu (fun a b => h a (endsIn_cons b)))
    simpa using this

end JoinP
