import Verif.Proofs.Layout
import Verif.Proofs.Printed
import Verif.Proofs.Headers
import Verif.Proofs.Shape

/-!
# Sheets of written css are clean

For C16.
-/

open Spec

namespace FilledP

theorem lexRun_ws {bad : Str} (hb : ∀ c ∈ bad, Str.isWhitespace c = false) :
    ∀ (w : Str) (q : Lex), (∀ c ∈ w, Str.isWhitespace c = true) → lexRun bad q w = some .out → q = .out
  | [], q, _, h => by simpa [lexRun] using h
  | c :: w, .out, _, _ => rfl
  | c :: w, .inStr, hw, h => by
    have hc := hw c (by simp)
    rw [lexRun, if_neg (by rintro rfl; exact absurd hc (by decide)), if_neg (by rintro rfl; exact absurd hc (by decide))] at h
    exact absurd (lexRun_ws hb w _ (fun d hd => hw d (by simp [hd])) h) (by simp)
  | c :: w, .esc, hw, h => by
    rw [lexRun] at h
    exact absurd (lexRun_ws hb w _ (fun d hd => hw d (by simp [hd])) h) (by simp)

theorem selText_trimStart : ∀ {s : Str}, SelText s → SelText (Str.trimStart s)
  | [], h => h
  | c :: s, h => by
    unfold Str.trimStart
    rw [List.dropWhile_cons]
    split
    · rename_i hc
      refine selText_trimStart (s := s) ?_
      unfold SelText at h ⊢
      rw [lexRun, if_neg (by rintro rfl; exact absurd hc (by decide))] at h
      split at h
      · cases h
      · exact h
    · exact h

theorem trimEnd_split (s : Str) : ∃ w, s = Str.trimEnd s ++ w ∧ ∀ c ∈ w, Str.isWhitespace c = true := by
  induction s with
  | nil => exact ⟨[], rfl, by simp⟩
  | cons c s ih =>
    obtain ⟨w, e, hw⟩ := ih
    simp only [Str.trimEnd]
    cases h : Str.trimEnd s with
    | nil =>
      rw [h] at e
      simp only
      split
      · rename_i hc
        refine ⟨c :: s, rfl, ?_⟩
        rw [e]
        intro d hd
        rcases List.mem_cons.1 hd with rfl | hd
        · exact hc
        · exact hw d hd
      · exact ⟨w, by rw [e]; rfl, hw⟩
    | cons d t =>
      rw [h] at e
      exact ⟨w, by simp [← e], hw⟩

theorem selText_trim {s : Str} (h : SelText s) : SelText (Str.trim s) := by
  unfold Str.trim
  have h1 := selText_trimStart h
  obtain ⟨w, e, hw⟩ := trimEnd_split (Str.trimStart s)
  generalize Str.trimStart s = t at *
  unfold SelText at h1 ⊢
  rw [e, HeadersP.lexRun_append] at h1
  obtain ⟨q, h2, h3⟩ := Option.bind_eq_some_iff.1 h1
  have := lexRun_ws (bad := c! "$,{};@/") (by decide) w q hw h3
  rw [h2, this]

theorem clean_at {names : List Str} {a : AtSrc} (h : a.Ok names) : CleanAt names a.value.flatten := by
  obtain ⟨-, h2, -, h4, h5⟩ := h
  exact ⟨a.name, h2, Str.trim a.cond, by simp [AtSrc.value], ShapeP.trim_idem _, fun e => h4 (ShapeP.trim_mem e),
    fun e => h5 (ShapeP.trim_mem e)⟩

theorem clean_decl {d : DeclSrc} (h : d.Ok) : CleanDecl d.key [d.value].flatten := by
  obtain ⟨-, h2, h3, -, -, h6, h7, h8, -⟩ := h
  exact ⟨h2, h3, by simpa using h6, by simpa using h7, by simpa using h8⟩

theorem clean_body {t : Str} {b : List RBC} (h : BodyLayout t b) : ∀ x ∈ b, CleanItem x := by
  induction h with
  | nil => simp
  | last d hd =>
    intro x hx
    simp only [List.mem_cons, List.not_mem_nil, or_false] at hx
    subst hx
    exact .attr _ _ (clean_decl hd)
  | decl d u rest hd _ ih =>
    intro x hx
    rcases List.mem_cons.1 hx with rfl | hx
    · exact .attr _ _ (clean_decl hd)
    · exact ih x hx
  | rule a body u content rest ha _ _ _ ih1 ih2 =>
    intro x hx
    rcases List.mem_cons.1 hx with rfl | hx
    · exact .rule _ _ (clean_at ha) ih1
    · exact ih2 x hx

theorem clean_layout {t : Str} {s : Sheet} (h : Layout t s) : FilledSheet s → CleanSheet s := by
  induction h with
  | nil => intro _ x hx; cases hx
  | decls ds u rest _ hds _ _ ih =>
    intro hf x hx
    rcases List.mem_cons.1 hx with rfl | hx
    · refine .block _ _ (by simp) ?_
      intro x hx
      obtain ⟨d, hd, rfl⟩ := List.mem_map.1 hx
      exact .attr _ _ (clean_decl (hds d hd))
    · exact ih hf.2 x hx
  | block l body u content rest _ hl hb _ ih =>
    intro hf x hx
    rcases List.mem_cons.1 hx with rfl | hx
    · refine .block _ _ ?_ (clean_body hb)
      intro s hs
      obtain ⟨d, hd, rfl⟩ := List.mem_map.1 hs
      refine ⟨?_, hf.1.1 _ hs, ?_⟩
      · simpa using selText_trim (hl d hd).2.1
      · simpa using ShapeP.trim_idem d.sel
    · exact ih hf.2 x hx
  | rule a body u content rest ha _ _ ih1 ih2 =>
    intro hf x hx
    rcases List.mem_cons.1 hx with rfl | hx
    · refine .rule _ _ (clean_at ha) ?_
      intro x hx
      obtain ⟨y, hy, rfl⟩ := List.mem_map.1 hx
      exact ih1 hf.1.2 y hy
    · exact ih2 hf.2 x hx
  | keyframes a body u frames rest ha _ _ _ ih =>
    intro hf x hx
    rcases List.mem_cons.1 hx with rfl | hx
    · have h1 : c! "@keyframes " <+: a.value.flatten := by
        have := ha.2.1
        simp only [List.mem_cons, List.not_mem_nil, or_false] at this
        simp [AtSrc.value, this]
      exact .keyframes _ _ (clean_at ha) (hf.1.1 h1).1 (hf.1.1 h1).2
    · exact ih hf.2 x hx

end FilledP
