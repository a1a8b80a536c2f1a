import Verif.Spec.Size
import Verif.Spec.Grammar
import Verif.Proofs.Text
import Verif.Proofs.Shape

/-! # How long the generated text is -/

namespace SizeP
open Spec

theorem expand_length (cur : Str) : ∀ s : Str, (expand cur s).length ≤ (cur.length + 1) * s.length
  | [] => by simp [expand]
  | c :: s => by
    have hgen : ∀ t : Str, t.length ≤ s.length →
        cur.length + (cur.length + 1) * t.length + 1 ≤ (cur.length + 1) * (s.length + 1) := by
      intro t ht
      have := Nat.mul_le_mul_left (cur.length + 1) ht
      rw [Nat.mul_succ]
      omega
    unfold expand
    split
    · cases ‹_ = []›
    · rename_i s' h
      cases h
      have ih := expand_length cur s
      have := hgen s (Nat.le_refl _)
      simp only [List.length_append, List.length_cons]
      omega
    · rename_i s' h
      cases h
      have ih := expand_length cur s'
      have := hgen s' (by simp only [List.length_cons]; omega)
      simp only [List.length_append, List.length_cons] at this ⊢
      omega
    · rename_i c' s' _ _ h
      cases h
      have ih := expand_length cur s
      have := hgen s (Nat.le_refl _)
      simp only [List.length_cons]
      omega
termination_by s => s.length

theorem expandAmp_length (cur : Str) : ∀ s : Str, (expandAmp cur s).length ≤ (cur.length + 1) * s.length
  | [] => by simp [expandAmp]
  | c :: s => by
    have ih := expandAmp_length cur s
    have e : (cur.length + 1) * (s.length + 1) = (cur.length + 1) * s.length + cur.length + 1 := by
      rw [Nat.mul_succ]; omega
    unfold expandAmp
    split
    · cases ‹_ = []›
    · rename_i s' h
      cases h
      simp only [List.length_append, List.length_cons, e]
      omega
    · rename_i c' s' _ h
      cases h
      simp only [List.length_cons, e]
      omega

/-- The length of the class, 0 for a global style. -/
def clsLen (cls : Option Str) : Nat := (cls.getD []).length

theorem scope_length (cls : Option Str) (s : Str) :
    (scopeSelector cls s).length + 2 ≤ (clsLen cls + 8) * (1 + s.length) := by
  have e : (clsLen cls + 8) * (1 + s.length) = (clsLen cls + 2) * s.length + 6 * s.length + clsLen cls + 8 := by
    rw [Nat.mul_add, Nat.mul_one, Nat.add_mul, Nat.add_mul (clsLen cls) 2]; omega
  rw [e]
  cases cls with
  | none =>
    have := expandAmp_length (c! ":root") s
    simp only [scopeSelector, clsLen] at this ⊢
    simp only [List.length_cons, List.length_nil, Option.getD_none] at this ⊢
    omega
  | some c =>
    have hk : clsLen (some c) = c.length := rfl
    rw [hk]
    simp only [scopeSelector]
    split
    · have h : (expand ('.' :: c) s).length ≤ (c.length + 2) * s.length := expand_length ('.' :: c) s
      omega
    · have := Nat.zero_le ((c.length + 2) * s.length)
      split
      · simp only [List.length_cons, List.length_append]; omega
      · simp only [List.length_cons, List.length_append]; omega

theorem join_length (cls : Option Str) : ∀ (c : List Selector),
    (Str.join (c! ", ") (c.map (fun s => scopeSelector cls s.flatten))).length ≤
      (clsLen cls + 8) * (c.map (fun s => 1 + s.flatten.length)).sum
  | [] => by simp [Str.join]
  | [s] => by
    have := scope_length cls s.flatten
    simp only [List.map_cons, List.map_nil, Str.join, List.sum_cons, List.sum_nil, Nat.add_zero]
    omega
  | s :: t :: c => by
    have h1 := scope_length cls s.flatten
    have h2 := join_length cls (t :: c)
    have e : (s :: t :: c).map (fun s : Selector => 1 + s.flatten.length) =
        (1 + s.flatten.length) :: (t :: c).map (fun s : Selector => 1 + s.flatten.length) := rfl
    have e' : Str.join (c! ", ") ((s :: t :: c).map (fun s => scopeSelector cls s.flatten)) =
        scopeSelector cls s.flatten ++ (c! ", ") ++
          Str.join (c! ", ") ((t :: c).map (fun s => scopeSelector cls s.flatten)) := rfl
    rw [e, e', List.sum_cons, Nat.mul_add]
    simp only [List.length_append, List.length_cons, List.length_nil] at h1 h2 ⊢
    omega

theorem current_length (cls : Option Str) : (current cls).length ≤ clsLen cls + 8 := by
  cases cls <;> simp [current, clsLen]

/-- What is known of the paths under `r` and `o`. -/
def Bound (H : Nat) (p : List Str) : Prop := ∀ h ∈ p, h.length ≤ H

theorem Bound.append {H : Nat} {p q : List Str} (hp : Bound H p) (hq : Bound H q) : Bound H (p ++ q) := by
  intro h hh
  exact (List.mem_append.1 hh).elim (hp h) (hq h)

mutual
theorem counts (cls : Option Str) : ∀ (x : RBC) (r : List Str) (o : Option Str),
    (declsIn (scopeSelector cls) (current cls) r o x).length +
      (keyframesIn (scopeSelector cls) (current cls) r o x).length ≤ sizeIn x
  | .attr k v, r, o => by simp [declsIn, keyframesIn, sizeIn]; omega
  | .rule c b, r, o => by
    have := counts_all cls b (r ++ [c.flatten]) o
    simp only [declsIn, keyframesIn, sizeIn, List.length_append]
    split <;> simp only [List.length_cons, List.length_nil] <;> omega
  | .block c b, r, o => by
    have := counts_all cls b r (some (blockSelector (scopeSelector cls) (current cls) o c))
    simp only [declsIn, keyframesIn, sizeIn]
    omega
theorem counts_all (cls : Option Str) : ∀ (xs : List RBC) (r : List Str) (o : Option Str),
    (declsInAll (scopeSelector cls) (current cls) r o xs).length +
      (keyframesInAll (scopeSelector cls) (current cls) r o xs).length ≤ sizeInAll xs
  | [], r, o => by simp [declsInAll, keyframesInAll, sizeInAll]
  | x :: xs, r, o => by
    have h1 := counts cls x r o
    have h2 := counts_all cls xs r o
    simp only [declsInAll, keyframesInAll, sizeInAll, List.length_append]
    omega
end

mutual
theorem texts_le (cls : Option Str) : ∀ (x : RBC) (r : List Str) (o : Option Str),
    ((declsIn (scopeSelector cls) (current cls) r o x).map (fun d => d.key.length + d.value.length)).sum ≤ sizeIn x
  | .attr k v, r, o => by
    simp only [declsIn, sizeIn, List.map_cons, List.map_nil, List.sum_cons, List.sum_nil]; omega
  | .rule c b, r, o => by
    have := texts_le_all cls b (r ++ [c.flatten]) o
    simp only [declsIn, sizeIn]; omega
  | .block c b, r, o => by
    have := texts_le_all cls b r (some (blockSelector (scopeSelector cls) (current cls) o c))
    simp only [declsIn, sizeIn]; omega
theorem texts_le_all (cls : Option Str) : ∀ (xs : List RBC) (r : List Str) (o : Option Str),
    ((declsInAll (scopeSelector cls) (current cls) r o xs).map (fun d => d.key.length + d.value.length)).sum ≤ sizeInAll xs
  | [], r, o => by simp [declsInAll, sizeInAll]
  | x :: xs, r, o => by
    have h1 := texts_le cls x r o
    have h2 := texts_le_all cls xs r o
    simp only [declsInAll, sizeInAll, List.map_append, List.sum_append]
    omega
end

mutual
/-- The headers are short and not many. -/
theorem paths (cls : Option Str) (H : Nat) : ∀ (x : RBC) (r : List Str) (o : Option Str),
    (clsLen cls + 8) * sizeIn x ≤ H → Bound H r → Bound H o.toList →
    (∀ d ∈ declsIn (scopeSelector cls) (current cls) r o x,
      Bound H d.path ∧ d.path.length ≤ r.length + o.toList.length + sizeIn x) ∧
    (∀ k ∈ keyframesIn (scopeSelector cls) (current cls) r o x,
      Bound H k ∧ k.length ≤ r.length + o.toList.length + sizeIn x)
  | .attr k v, r, o, hH, hr, ho => by
    simp only [declsIn, keyframesIn, List.mem_singleton, List.not_mem_nil, false_implies, implies_true, and_true]
    rintro d rfl
    refine ⟨hr.append ho, ?_⟩
    simp only [List.length_append]
    omega
  | .rule c b, r, o, hH, hr, ho => by
    have hsz : c.flatten.length + 1 + sizeInAll b = sizeIn (.rule c b) := by rw [sizeIn]; omega
    have hle : ∀ n, n ≤ sizeIn (.rule c b) → (clsLen cls + 8) * n ≤ H :=
      fun n hn => Nat.le_trans (Nat.mul_le_mul_left _ hn) hH
    have hc : Bound H [c.flatten] := by
      intro h hh
      rw [List.mem_singleton] at hh
      subst hh
      refine Nat.le_trans ?_ (hle c.flatten.length (by omega))
      exact Nat.le_mul_of_pos_left _ (by omega)
    obtain ⟨h1, h2⟩ := paths_all cls H b (r ++ [c.flatten]) o (hle _ (by omega)) (hr.append hc) ho
    simp only [declsIn, keyframesIn]
    simp only [List.length_append, List.length_cons, List.length_nil] at h1 h2
    refine ⟨fun d hd => ⟨(h1 d hd).1, ?_⟩, fun k hk => ?_⟩
    · have := (h1 d hd).2; omega
    · rcases List.mem_append.1 hk with hk | hk
      · split at hk
        · rw [List.mem_singleton] at hk
          subst hk
          refine ⟨(hr.append hc).append ho, ?_⟩
          simp only [List.length_append, List.length_cons, List.length_nil]
          omega
        · simp at hk
      · refine ⟨(h2 k hk).1, ?_⟩
        have := (h2 k hk).2; omega
  | .block c b, r, o, hH, hr, ho => by
    have hsz : 1 + (c.map (fun s => 1 + s.flatten.length)).sum + sizeInAll b = sizeIn (.block c b) := by rw [sizeIn]
    have hle : ∀ n, n ≤ sizeIn (.block c b) → (clsLen cls + 8) * n ≤ H :=
      fun n hn => Nat.le_trans (Nat.mul_le_mul_left _ hn) hH
    have hs : Bound H (some (blockSelector (scopeSelector cls) (current cls) o c)).toList := by
      intro h hh
      simp only [Option.toList_some, List.mem_singleton] at hh
      subst hh
      unfold blockSelector
      split
      · cases o with
        | none =>
          refine Nat.le_trans (current_length cls) ?_
          have := hle 1 (by omega)
          omega
        | some t => exact ho t (by simp)
      · exact Nat.le_trans (join_length cls _) (hle _ (by omega))
    obtain ⟨h1, h2⟩ := paths_all cls H b r _ (hle _ (by omega)) hr hs
    simp only [declsIn, keyframesIn]
    simp only [Option.toList_some, List.length_cons, List.length_nil] at h1 h2
    refine ⟨fun d hd => ⟨(h1 d hd).1, ?_⟩, fun k hk => ⟨(h2 k hk).1, ?_⟩⟩
    · have := (h1 d hd).2; omega
    · have := (h2 k hk).2; omega
theorem paths_all (cls : Option Str) (H : Nat) : ∀ (xs : List RBC) (r : List Str) (o : Option Str),
    (clsLen cls + 8) * sizeInAll xs ≤ H → Bound H r → Bound H o.toList →
    (∀ d ∈ declsInAll (scopeSelector cls) (current cls) r o xs,
      Bound H d.path ∧ d.path.length ≤ r.length + o.toList.length + sizeInAll xs) ∧
    (∀ k ∈ keyframesInAll (scopeSelector cls) (current cls) r o xs,
      Bound H k ∧ k.length ≤ r.length + o.toList.length + sizeInAll xs)
  | [], r, o, hH, hr, ho => by simp [declsInAll, keyframesInAll]
  | x :: xs, r, o, hH, hr, ho => by
    rw [sizeInAll, Nat.mul_add] at hH
    obtain ⟨h1, h2⟩ := paths cls H x r o (by omega) hr ho
    obtain ⟨h3, h4⟩ := paths_all cls H xs r o (by omega) hr ho
    simp only [declsInAll, keyframesInAll, sizeInAll, List.mem_append]
    refine ⟨fun d hd => ?_, fun k hk => ?_⟩
    · rcases hd with hd | hd
      · exact ⟨(h1 d hd).1, by have := (h1 d hd).2; omega⟩
      · exact ⟨(h3 d hd).1, by have := (h3 d hd).2; omega⟩
    · rcases hk with hk | hk
      · exact ⟨(h2 k hk).1, by have := (h2 k hk).2; omega⟩
      · exact ⟨(h4 k hk).1, by have := (h4 k hk).2; omega⟩
end

theorem entered_cons_enter (p : List Str) (os : List Obs) : entered (.enter p :: os) = p :: entered os := rfl
theorem entered_cons_decl (d : Decl) (os : List Obs) : entered (.decl d :: os) = entered os := rfl
theorem seen_cons_enter (p : List Str) (os : List Obs) : seenDecls (.enter p :: os) = seenDecls os := rfl
theorem seen_cons_decl (d : Decl) (os : List Obs) : seenDecls (.decl d :: os) = d :: seenDecls os := rfl

theorem indent_length (n : Nat) : (indent n).length = 4 * n := by simp [indent]

theorem headers_entered : ∀ (evs : List Ev) (st st' : List Str) (obs : List Obs),
    readEvents st evs = some (obs, st') → headerLines evs = (entered obs).length
  | [], st, st', obs, h => by cases h; rfl
  | .opn x :: evs, st, st', obs, h => by
    simp only [readEvents] at h
    split at h
    · cases h
    · rename_i o s hr
      cases h
      have := headers_entered evs _ _ _ hr
      rw [entered_cons_enter, List.length_cons, ← this]
      simp [headerLines]
  | .cls :: evs, st, st', obs, h => by
    simp only [readEvents] at h
    split at h
    · cases h
    · rw [← headers_entered evs _ _ _ h]
      simp [headerLines]
  | .decl k v :: evs, st, st', obs, h => by
    simp only [readEvents] at h
    split at h
    · cases h
    · rename_i o s hr
      cases h
      rw [entered_cons_decl, ← headers_entered evs _ _ _ hr]
      simp [headerLines]

theorem layout_length (D H : Nat) : ∀ (evs : List Ev) (st st' : List Str) (obs : List Obs),
    readEvents st evs = some (obs, st') → st.length ≤ D →
    (∀ p, Obs.enter p ∈ obs → p.length ≤ D ∧ Bound H p) →
    (layout st.length evs).length + (4 * D + 2) * st'.length ≤
      (entered obs).length * (8 * D + H + 5) + (4 * D + 2) * st.length +
        ((seenDecls obs).map (fun d => 4 * D + 4 + (d.key.length + d.value.length))).sum
  | [], st, st', obs, h, hD, hp => by
    cases h
    simp [layout, entered, seenDecls]
  | .opn x :: evs, st, st', obs, h, hD, hp => by
    simp only [readEvents] at h
    split at h
    · cases h
    · rename_i o s hr
      cases h
      obtain ⟨h1, h2⟩ := hp _ (.head _)
      have ih := layout_length D H evs _ _ _ hr h1 fun p hpp => hp p (.tail _ hpp)
      have h3 := h2 x (by simp)
      simp only [List.length_append, List.length_cons, List.length_nil, Nat.zero_add] at ih h1
      have e1 : (4 * D + 2) * (st.length + 1) = (4 * D + 2) * st.length + (4 * D + 2) := Nat.mul_succ _ _
      have e2 : ((entered o).length + 1) * (8 * D + H + 5) = (entered o).length * (8 * D + H + 5) + (8 * D + H + 5) :=
        Nat.succ_mul _ _
      simp only [layout, entered_cons_enter, seen_cons_enter, List.length_append, List.length_cons, indent_length,
        List.length_nil]
      omega
  | .cls :: evs, st, st', obs, h, hD, hp => by
    simp only [readEvents] at h
    split at h
    · cases h
    · rename_i hne
      have hpos : 0 < st.length := List.length_pos_iff.2 hne
      have ih := layout_length D H evs _ _ _ h (by rw [List.length_dropLast]; omega) hp
      rw [List.length_dropLast] at ih
      have e : (4 * D + 2) * st.length = (4 * D + 2) * (st.length - 1) + (4 * D + 2) := by
        rw [← Nat.mul_succ]; congr 1; omega
      simp only [layout, List.length_append, indent_length, List.length_cons, List.length_nil]
      omega
  | .decl k v :: evs, st, st', obs, h, hD, hp => by
    simp only [readEvents] at h
    split at h
    · cases h
    · rename_i o s hr
      cases h
      have ih := layout_length D H evs _ _ _ hr hD fun p hpp => hp p (.tail _ hpp)
      simp only [layout, entered_cons_decl, seen_cons_decl, List.length_append, List.length_cons, indent_length,
        List.length_nil, List.map_cons, List.sum_cons]
      omega

theorem sum_le {α : Type} (f : α → Nat) (n : Nat) : ∀ (l : List α), (∀ x ∈ l, f x ≤ n) → (l.map f).sum ≤ l.length * n
  | [], _ => by simp
  | x :: l, h => by
    have h1 := h x (.head _)
    have h2 := sum_le f n l fun y hy => h y (.tail _ hy)
    simp only [List.map_cons, List.sum_cons, List.length_cons, Nat.succ_mul]
    omega

theorem sum_add {α : Type} (f : α → Nat) (n : Nat) : ∀ (l : List α),
    (l.map (fun x => n + f x)).sum = l.length * n + (l.map f).sum
  | [] => by simp
  | x :: l => by
    simp only [List.map_cons, List.sum_cons, List.length_cons, Nat.succ_mul, sum_add f n l]
    omega

/-- All of it for a sheet. -/
theorem sheet_size (s : Sheet) (cls : Option Str) (hc : ∀ c ∈ cls, ':' ∉ c) :
    ∃ evs obs, s.toStyleStr cls = layout 0 evs ∧ readEvents [] evs = some (obs, []) ∧
      seenDecls obs = decls cls s ∧
      headerLines evs ≤ sizeOfSheet s * sizeOfSheet s ∧
      (s.toStyleStr cls).length ≤ (clsLen cls + 30) * (sizeOfSheet s * sizeOfSheet s * sizeOfSheet s) := by
  obtain ⟨evs, obs, h1, h2, h3⟩ := Text.sheet_spec s cls hc
  have hn := counts_all cls (s.map ScopeContent.toRBC) [] none
  have ht := texts_le_all cls (s.map ScopeContent.toRBC) [] none
  obtain ⟨hp, hk⟩ := paths_all cls _ (s.map ScopeContent.toRBC) [] none (Nat.le_refl _) (fun h hh => by simp at hh)
    (fun h hh => by simp at hh)
  have hfew := h3.few
  have hdd := h3.decls
  have honly := h3.only
  have hN : sizeOfSheet s = sizeInAll (s.map ScopeContent.toRBC) := rfl
  change (decls cls s).length + (keyframes cls s).length ≤ _ at hn
  change ((decls cls s).map _).sum ≤ _ at ht
  change ∀ d ∈ decls cls s, _ at hp
  change ∀ k ∈ keyframes cls s, _ at hk
  rw [← hN] at hn ht hp hk
  generalize sizeOfSheet s = N at *
  have e1 := sum_le (fun d : Decl => d.path.length) N (decls cls s) fun d hd => by
    have := (hp d hd).2; simp at this; exact this
  have e2 := sum_le List.length N (keyframes cls s) fun k hk' => by
    have := (hk k hk').2; simp at this; exact this
  have e3 : (entered obs).length ≤ N * N := by
    refine Nat.le_trans hfew (Nat.le_trans (Nat.add_le_add e1 e2) ?_)
    rw [← Nat.add_mul]
    exact Nat.mul_le_mul_right _ hn
  refine ⟨evs, obs, h1, h2, hdd, ?_, ?_⟩
  · rw [headers_entered _ _ _ _ h2]; exact e3
  · have hl := layout_length N ((clsLen cls + 8) * N) evs [] [] obs h2 (Nat.zero_le _) (by
      intro p hpp
      rcases honly p hpp with ⟨d, hd, hpre⟩ | ⟨k, hk', hpre⟩
      · obtain ⟨a, b⟩ := hp d hd
        refine ⟨?_, fun h hh => a h (hpre.subset hh)⟩
        have := hpre.length_le
        simp at b; omega
      · obtain ⟨a, b⟩ := hk k hk'
        refine ⟨?_, fun h hh => a h (hpre.subset hh)⟩
        have := hpre.length_le
        simp at b; omega)
    rw [hdd, sum_add] at hl
    simp only [List.length_nil, Nat.mul_zero, Nat.add_zero] at hl
    rw [← h1] at hl
    have e4 : (decls cls s).length * (4 * N + 4) ≤ N * (4 * N + 4) := Nat.mul_le_mul_right _ (by omega)
    have e5 : (entered obs).length * (8 * N + (clsLen cls + 8) * N + 5) ≤ N * N * (8 * N + (clsLen cls + 8) * N + 5) :=
      Nat.mul_le_mul_right _ e3
    have hN3 : N ≤ N * N * N ∧ N * N ≤ N * N * N := by
      rcases Nat.eq_zero_or_pos N with h0 | h0
      · subst h0; simp
      · have a : N * N ≤ N * N * N := Nat.le_mul_of_pos_right _ h0
        exact ⟨Nat.le_trans (Nat.le_mul_of_pos_right _ h0) a, a⟩
    have e6 : N * N * (8 * N + (clsLen cls + 8) * N + 5) =
        (clsLen cls + 16) * (N * N * N) + 5 * (N * N) := by
      rw [Nat.mul_add, ← Nat.add_mul, ← Nat.mul_assoc, Nat.mul_comm (N * N) (8 + (clsLen cls + 8)), Nat.mul_assoc,
        Nat.mul_comm (N * N) 5]
      congr 2
      omega
    have e7 : N * (4 * N + 4) = 4 * (N * N) + 4 * N := by
      rw [Nat.mul_add, Nat.mul_comm N 4, Nat.mul_left_comm]
    have e8 : (clsLen cls + 30) * (N * N * N) = (clsLen cls + 16) * (N * N * N) + 14 * (N * N * N) := by
      rw [← Nat.add_mul]
    omega

/-! ## The size of what is parsed -/

theorem trim_length (s : Str) : (Str.trim s).length ≤ s.length := by
  unfold Str.trim
  exact Nat.le_trans (ShapeP.trimEnd_prefix _).length_le (List.dropWhile_suffix _).length_le

theorem size_append : ∀ (a b : List RBC), sizeInAll (a ++ b) = sizeInAll a + sizeInAll b
  | [], b => by simp [sizeInAll]
  | x :: a, b => by simp only [List.cons_append, sizeInAll, size_append a b]; omega

theorem decl_size {t : Str} {d : Str × List Str} (h : DeclText t d) : sizeIn (.attr d.1 d.2) ≤ t.length := by
  cases h with
  | intro b0 key b1 b2 raw b3 =>
    have h1 := trim_length key
    have h2 := trim_length raw
    simp only [sizeIn, List.flatten_cons, List.flatten_nil, List.append_nil, List.length_append, List.length_cons,
      List.length_nil]
    omega

theorem decls_size {t : Str} {ds : List (Str × List Str)} (h : DeclTexts t ds) :
    sizeInAll (declContents ds) ≤ t.length := by
  induction h with
  | one t d h =>
    have := decl_size h
    simpa [declContents, sizeInAll] using this
  | cons t u d ds h _ ih =>
    have := decl_size h
    simp only [declContents, List.map_cons, sizeInAll, List.length_append] at ih ⊢
    omega

theorem sels_size {t : Str} {sels : List Selector} (h : SelectorTexts t sels) :
    (sels.map (fun s => 1 + s.flatten.length)).sum ≤ t.length + 1 := by
  induction h with
  | one b raw b' comma =>
    have := trim_length raw
    simp only [List.map_cons, List.map_nil, List.sum_cons, List.sum_nil, List.flatten_cons, List.flatten_nil,
      List.append_nil, List.length_append]
    omega
  | cons b raw b' u sels _ _ _ _ _ ih =>
    have := trim_length raw
    simp only [List.map_cons, List.sum_cons, List.flatten_cons, List.flatten_nil,
      List.append_nil, List.length_append, List.length_cons, List.length_nil]
    omega

theorem at_size {names : List Str} {t : Str} {cond : List Str} (h : AtText names t cond) :
    cond.flatten.length ≤ t.length := by
  cases h with
  | intro b name raw b' =>
    have := trim_length raw
    simp only [List.flatten_cons, List.flatten_nil, List.append_nil, List.length_append, List.length_cons,
      List.length_nil]
    omega

theorem content_size {t : Str} {c : List RBC} (h : ContentText t c) : sizeInAll c ≤ t.length := by
  induction h with
  | nil => simp [sizeInAll]
  | blank b u rest _ _ ih => simp only [List.length_append]; omega
  | decls t semi u ds rest h _ _ ih =>
    have := decls_size h
    simp only [size_append, List.length_append]; omega
  | rule t body u cond content rest h _ _ ih1 ih2 =>
    have := at_size h
    simp only [sizeInAll, sizeIn, List.length_append, List.length_cons, List.length_nil]; omega

theorem frames_size {t : Str} {c : List RBC} (h : FrameTexts t c) : sizeInAll c ≤ t.length := by
  induction h with
  | nil => simp [sizeInAll]
  | blank b u rest _ _ ih => simp only [List.length_append]; omega
  | frame t b body u sels content rest h _ hc _ ih =>
    have h1 := content_size hc
    have h2 := trim_length (t ++ b)
    simp only [sizeInAll, sizeIn, List.length_append, List.length_cons, List.length_nil, List.flatten_cons,
      List.flatten_nil, List.append_nil] at h2 ⊢
    omega

theorem parsed_size {t : Str} {s : Sheet} (h : SheetText t s) : sizeOfSheet s ≤ t.length := by
  induction h with
  | nil => simp [sizeOfSheet, sizeInAll]
  | blank b u rest _ _ ih => simp only [List.length_append]; omega
  | decls t u ds rest h _ ih =>
    have := decls_size h
    simp only [sizeOfSheet, List.map_cons, ScopeContent.toRBC, sizeInAll, sizeIn, List.length_append, List.length_cons,
      List.length_nil, List.map_nil, List.sum_nil] at ih ⊢
    omega
  | block t b body u sels content rest h _ hc _ ih =>
    have h1 := content_size hc
    have h2 := sels_size h
    simp only [sizeOfSheet, List.map_cons, ScopeContent.toRBC, sizeInAll, sizeIn, List.length_append, List.length_cons,
      List.length_nil] at ih ⊢
    omega
  | rule t body u cond content rest h _ _ ih1 ih2 =>
    have h1 := at_size h
    simp only [sizeOfSheet, List.map_cons, ScopeContent.toRBC, sizeInAll, sizeIn, List.length_append, List.length_cons,
      List.length_nil] at ih1 ih2 ⊢
    omega
  | keyframes t body u cond frames rest h hf _ ih =>
    have h1 := at_size h
    have h2 := frames_size hf
    simp only [sizeOfSheet, List.map_cons, ScopeContent.toRBC, sizeInAll, sizeIn, List.length_append, List.length_cons,
      List.length_nil] at ih ⊢
    omega

end SizeP
