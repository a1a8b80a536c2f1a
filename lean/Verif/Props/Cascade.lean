import Verif.Proofs.Cascade
import Verif.Props.Select
import Verif.Props.SelectGlobal
import Verif.Props.WholePage

/-!
# Which declaration wins

C91. `Spec/Cascade` says what the cascade is, and which declaration of a sheet should win.
-/

namespace Cascade

open Spec SelectP CascadeP

variable {El : Type}

/-! ## C91: the declaration that should win wins -/

/-- **C91**, for a selector: printed for a class, it is as specific as it should be. The
current element weighs as much as the class, everything else as before, and a class is added
only if the current element is not mentioned. For the whole page, nothing is added. -/
theorem C91_weight (w : Str → Weight) (cls : Option Str) (hcls : ∀ c ∈ cls, CleanClass c) (s : Selector)
    (hs : SelectorFor cls s.flatten) : weightOf w (Selector.write cls s) = weightFor w cls s.flatten := by
  rw [SelectorP.write_spec cls (by
    rintro c hc hx
    have := ((hcls c hc).2 ':' hx).1
    revert this; decide) s]
  cases cls with
  | none => exact weight_global w hs
  | some c => exact weight_scoped w (hcls c rfl) hs.2.2

/-- Non-vacuity, with the weights spelled out. -/
example : SelectorFor (some (c! "c")) (c! "p#x > a[href]") ∧ SelectorFor (some (c! "c")) (c! ".dark &.on::before") ∧
    SelectorFor none (c! "& > a") ∧
    weightFor usualWeight (some (c! "c")) (c! "p#x > a[href]") = some ⟨1, 2, 2⟩ ∧
    weightFor usualWeight (some (c! "c")) (c! ".dark &.on::before") = some ⟨0, 3, 1⟩ ∧
    weightFor usualWeight (some (c! "c")) (c! ":hover") = some ⟨0, 2, 0⟩ ∧
    weightFor usualWeight none (c! "& > a") = some ⟨0, 1, 1⟩ ∧
    weightFor usualWeight none (c! "p a") = some ⟨0, 0, 2⟩ := by decide +kernel

/-- **C91**, for one style. If the texts of its sheet are whole and its selectors are those of
C70 and C75, a browser that reads the text decides about every property of every element as
the sheet says: in every document, whatever simple selectors match and weigh, whichever at-rules
hold and whichever values are important, the same declaration wins. -/
theorem C91_in_a_style (s : Sheet) (cls : Option Str) (hcls : ∀ c ∈ cls, CleanClass c) (hw : WholeSheet s)
    (hsel : SelectorsOf (SelectorFor cls) s) :
    ∃ ds, browserReads (s.toStyleStr cls) = some ds ∧ ds.length = (said s).length ∧
      ∀ (S : Setting El) (e : El) (k : Str) (i : Nat),
        S.Wins ds e k i ↔ S.ShouldWin ((said s).map (fun x => (cls, x))) e k i := by
  refine ⟨_, C68_browser_reads s cls hcls hw, by rw [decls_eq, List.length_map], ?_⟩
  intro S e k i
  rw [decls_eq, show (said s).map (declOf cls) =
    ((said s).map (fun x => (cls, x))).map (fun y => declOf y.1 y.2) by simp [Function.comp_def]]
  refine winner_map _ _ ?_ k i
  intro y hy
  obtain ⟨x, hx, rfl⟩ := List.mem_map.1 hy
  exact ⟨rfl, rfl, fun n => strength_iff hcls (fine_of hsel x hx) S e n⟩

/-- The cascade decides. If a declaration of the property applies to the element and the
at-rules around it hold, there is exactly one that wins, and it applies too. -/
theorem C91_one_winner (S : Setting El) (ds : List Decl) (e : El) (k : Str)
    (h : ∃ d ∈ ds, d.key = k ∧ S.doc.Applies d e ∧ ∀ r ∈ d.path.dropLast, S.holds r) :
    ∃ i, S.Wins ds e k i ∧ (∀ j, S.Wins ds e k j → j = i) ∧
      ∃ d, ds[i]? = some d ∧ d.key = k ∧ S.doc.Applies d e ∧ ∀ r ∈ d.path.dropLast, S.holds r := by
  obtain ⟨d, h1, h2, h3⟩ := h
  obtain ⟨i, hi⟩ := winner_exists (key := Decl.key) (important := fun d => S.important d.value)
    (fun a m m' => strength_unique S e a m m') k ds ⟨d, h1, h2, (strength_exists S e d).2 h3⟩
  refine ⟨i, hi, fun j hj => winner_unique hj hi, ?_⟩
  obtain ⟨a, n, h4, h5, h6, -⟩ := hi
  exact ⟨a, h4, h5, (strength_exists S e a).1 ⟨n, h6⟩⟩

/-! ### An example -/

/-- A page with one element, which has the class `c` and the pointer on it. -/
def hoverSetting : Setting Unit where
  doc := { parent := fun _ => none, previous := fun _ => none, meets := fun _ s => s = c! ".c" ∨ s = c! ":hover" }
  weight := usualWeight
  holds := fun r => r = c! "@media print"
  important := fun v => v = c! "x !important"

/-- A loose declaration; one for the pointer; one at the end, and one under at-rules. -/
def hoverSheet : Sheet :=
  [ .block [] [.attr (c! "color") [c! "red"]],
    .block [[c! "p"], [c! "&:hover"]] [.attr (c! "color") [c! "blue"]],
    .rule [c! "@media print"] [.block [] [.attr (c! "color") [c! "green"]]],
    .rule [c! "@media screen"] [.block [[c! ":hover"]] [.attr (c! "color") [c! "x !important"]]] ]

/-- The conditions hold. -/
example : CleanClass (c! "c") ∧ WholeSheet hoverSheet ∧ SelectorsOf (SelectorFor (some (c! "c"))) hoverSheet ∧
    said hoverSheet =
      [ ⟨[], some [], c! "color", c! "red"⟩, ⟨[], some [[c! "p"], [c! "&:hover"]], c! "color", c! "blue"⟩,
        ⟨[c! "@media print"], some [], c! "color", c! "green"⟩,
        ⟨[c! "@media screen"], some [[c! ":hover"]], c! "color", c! "x !important"⟩ ] ∧
    browserReads (hoverSheet.toStyleStr (some (c! "c"))) = some
      [ ⟨[c! ".c"], c! "color", c! "red"⟩, ⟨[c! ".c p, .c:hover"], c! "color", c! "blue"⟩,
        ⟨[c! "@media print", c! ".c"], c! "color", c! "green"⟩,
        ⟨[c! "@media screen", c! ".c:hover"], c! "color", c! "x !important"⟩ ] := by
  refine ⟨by decide, by decide +kernel, by decide +kernel, by decide +kernel, by decide +kernel⟩

/-- The one for the pointer wins: it is more specific than those without a selector, and the
last one is under an at-rule that does not hold. -/
example : hoverSetting.ShouldWin ((said hoverSheet).map (fun x => (some (c! "c"), x))) () (c! "color") 1 := by
  have hs : (said hoverSheet).map (fun x => (some (c! "c"), x)) =
      [ (some (c! "c"), ⟨[], some [], c! "color", c! "red"⟩),
        (some (c! "c"), ⟨[], some [[c! "p"], [c! "&:hover"]], c! "color", c! "blue"⟩),
        (some (c! "c"), ⟨[c! "@media print"], some [], c! "color", c! "green"⟩),
        (some (c! "c"), ⟨[c! "@media screen"], some [[c! ":hover"]], c! "color", c! "x !important"⟩) ] := by
    with_unfolding_all rfl
  have hw : weightFor usualWeight (some (c! "c")) (c! "&:hover") = some ⟨0, 2, 0⟩ := by decide +kernel
  have hp : ∀ e, ¬ hoverSetting.doc.MeansFor (some (c! "c")) (c! "p") e := by
    intro e
    show ¬ hoverSetting.doc.Means _ _ _
    rw [Doc.Means, if_neg (by decide)]
    rintro ⟨a, -, r, h1, -, h2⟩
    have : readSelector (c! "p") = some [.simple (c! "p")] := by decide
    rw [this] at h1; cases h1
    obtain ⟨-, h3⟩ := h2
    simp [hoverSetting] at h3
  have hh : hoverSetting.doc.MeansFor (some (c! "c")) (c! "&:hover") () := by
    show hoverSetting.doc.Means _ _ _
    rw [Doc.Means, if_pos (by decide)]
    refine ⟨c! "&", [.simple (c! ":hover")], by decide, ⟨trivial, ?_⟩, ?_⟩ <;>
      simp [Doc.withCurrent, hoverSetting, isCurrent]
  rw [hs]
  refine ⟨_, ⟨0, 2, 0⟩, rfl, rfl, ⟨by simp, _, rfl, ?_, ?_⟩, ?_⟩
  · dsimp only
    rw [if_neg (by simp)]
    exact ⟨[c! "&:hover"], by simp, hh, hw⟩
  · intro m
    dsimp only
    rw [if_neg (by simp)]
    rintro ⟨s, h1, h2, h3⟩
    simp only [List.mem_cons, List.not_mem_nil, or_false] at h1
    rcases h1 with rfl | rfl
    · exact absurd h2 (hp _)
    · have h3 : weightFor usualWeight (some (c! "c")) (c! "&:hover") = some m := h3
      rw [hw] at h3
      cases h3
      exact lt_irrefl _
  · intro j b m hj hk hm
    obtain ⟨h1, sels, h2, h3, -⟩ := hm
    match j with
    | 0 =>
      cases hj; cases h2
      rw [if_pos rfl] at h3
      rw [h3.2]
      simp [Ahead, hoverSetting, Weight.lt, current, usualWeight]
    | 1 =>
      cases hj; cases h2
      rw [if_neg (by simp)] at h3
      obtain ⟨s, h4, h5, h6⟩ := h3
      simp only [List.mem_cons, List.not_mem_nil, or_false] at h4
      rcases h4 with rfl | rfl
      · exact absurd h5 (hp _)
      · have h6 : weightFor usualWeight (some (c! "c")) (c! "&:hover") = some m := h6
        rw [hw] at h6
        cases h6
        simp [Ahead, Weight.lt]
    | 2 =>
      cases hj; cases h2
      rw [if_pos rfl] at h3
      rw [h3.2]
      simp [Ahead, hoverSetting, Weight.lt, current, usualWeight]
    | 3 =>
      cases hj
      have := (h1 (c! "@media screen") (by simp)).2
      simp [hoverSetting] at this
    | n + 4 => simp at hj

end Cascade

namespace Manager

open Spec CascadeP

variable {El : Type}

/-- **C91** for a whole application, under the conditions of C89: in the container of any
reachable state, a browser decides as the living styles say, one after the other in the order
of creation. -/
theorem C91_on_the_page (env : Env) (hw : env.wasm = true) (d : Dom)
    (ops : List Op) (s : St) (hs : s = run env ops (St.init d)) (hids : FreshIds env s.ctr)
    (hload : ∀ c ∈ s.heap, c.origin = .created) (hpref : ∀ c ∈ s.heap, cssIdent c.key.pref = true)
    (hmgr : ∀ m ∈ s.mgrs, m.log = none ∧ ∃ i, m.container = some i ∧ Attached d i)
    (hd : ∀ x ∈ d.inDoc, x.isStyle = false) (i : Nat) (ha : Attached d i)
    (hwhole : ∀ c ∈ living s i, WholeSheet c.key.ast ∧ CleanClass c.id ∧ SelectorsOf (SelectorFor c.cls) c.key.ast) :
    ∃ ds, pageReads (s.dom.childrenOf i) = some ds ∧
      ∀ (S : Setting El) (e : El) (k : Str) (n : Nat),
        S.Wins ds e k n ↔ S.ShouldWin ((living s i).flatMap Content.said) e k n := by
  refine ⟨_, (C89_application env hw d ops s hs hids hload hpref hmgr hd i ha).2 ?_, ?_⟩
  · intro c hc
    exact ⟨(hwhole c hc).1, fun x hx => ((hwhole c hc).2.1.2 x hx).2⟩
  · intro S e k n
    have : (living s i).flatMap Content.decls =
        ((living s i).flatMap Content.said).map (fun y => declOf y.1 y.2) := by
      rw [List.map_flatMap]
      congr 1
      funext c
      rw [Content.decls, Content.said, List.map_map, decls_eq]
      rfl
    rw [this]
    refine winner_map _ _ ?_ k n
    intro y hy
    obtain ⟨c, hc, hy⟩ := List.mem_flatMap.1 hy
    obtain ⟨x, hx, rfl⟩ := List.mem_map.1 hy
    refine ⟨rfl, rfl, fun n => strength_iff ?_ (fine_of (hwhole c hc).2.2 x hx) S e n⟩
    intro c' hc'
    rw [Content.cls] at hc'
    split at hc'
    · cases hc'
    · cases hc'
      exact (hwhole c hc).2.1

/-- What the styles say is in the order of creation. -/
theorem said_pairwise {s : St} (hn : (s.heap.map Content.id).Nodup) (i : Nat) :
    ((living s i).flatMap Content.said).Pairwise (fun a b => ∀ (p q : Nat) (c c' : Content), s.heap[p]? = some c →
      s.heap[q]? = some c' → a.1 = some c.id → b.1 = some c'.id → p ≤ q) := by
  have same : ∀ (p q : Nat) (c c' : Content), s.heap[p]? = some c → s.heap[q]? = some c' → c.id = c'.id → p = q := by
    intro p q c c' h1 h2 h3
    apply Classical.byContradiction
    intro h4
    exact id_ne hn h1 h2 (Ne.symm h4) h3.symm
  have hcls : ∀ (c c' : Content) a, a ∈ c.said → a.1 = some c'.id → c.id = c'.id := by
    intro c c' a ha h
    obtain ⟨x, -, rfl⟩ := List.mem_map.1 ha
    have h : c.cls = some c'.id := h
    rw [Content.cls] at h
    split at h
    · cases h
    · exact Option.some.inj h
  rw [List.pairwise_flatMap]
  constructor
  · intro c hc
    refine List.Pairwise.imp_of_mem ?_ (List.pairwise_of_forall (R := fun _ _ => True) (fun _ _ => trivial))
    intro a b ha hb _ p q c1 c2 h1 h2 h3 h4
    exact Nat.le_of_eq (same p q c1 c2 h1 h2 ((hcls c c1 a ha h3).symm.trans (hcls c c2 b hb h4)))
  · refine (living_pairwise s i).imp ?_
    rintro c c' ⟨p0, q0, h, h1, h2, -⟩ a ha b hb p q c1 c2 h3 h4 h5 h6
    have e1 := same p0 p c c1 h1 h3 (hcls c c1 a ha h5)
    have e2 := same q0 q c' c2 h2 h4 (hcls c' c2 b hb h6)
    omega

/-- **C91**, the order of styles. If a declaration of a style wins although a style created
later has a declaration of the same property that applies to the element and is as important,
it is because its selector is more specific. So among equals, the later style wins. (The
styles are for classes, and the classes are distinct, as C21 says.) -/
theorem C91_later_wins (s : St) (hn : (s.heap.map Content.id).Nodup) (i : Nat) (p q : Nat) (hpq : p < q)
    (c c' : Content) (hc : s.heap[p]? = some c) (hc' : s.heap[q]? = some c') (S : Setting El) (e : El) (k : Str)
    (n : Nat) (x y : Said) (hx : ((living s i).flatMap Content.said)[n]? = some (some c.id, x))
    (hwin : S.ShouldWin ((living s i).flatMap Content.said) e k n)
    (hy : (some c'.id, y) ∈ (living s i).flatMap Content.said) (hk : y.key = k)
    (himp : S.important y.value = S.important x.value) (a b : Weight) (ha : S.Should (some c.id) e x a)
    (hb : S.Should (some c'.id) e y b) : b.lt a := by
  obtain ⟨z, w, h1, h2, h3, h4⟩ := hwin
  rw [hx] at h1
  cases h1
  obtain ⟨j, hj⟩ := List.getElem?_of_mem hy
  have hnj : n < j := by
    apply Classical.byContradiction
    intro hlt
    have hne : j ≠ n := by
      rintro rfl
      rw [hx] at hj
      simp only [Option.some.injEq, Prod.mk.injEq] at hj
      exact id_ne hn hc hc' (by omega) hj.1.symm
    have hlen := (List.getElem?_eq_some_iff.1 hx).1
    have := List.pairwise_iff_getElem.1 (said_pairwise hn i) j n (by omega) hlen (by omega) q p c' c hc' hc
      (by rw [(List.getElem?_eq_some_iff.1 hj).2]) (by rw [(List.getElem?_eq_some_iff.1 hx).2])
    omega
  have h5 := h4 j _ b hj hk hb
  have hw : w = a := by
    obtain ⟨-, sels, e1, e2⟩ := h3
    obtain ⟨-, sels', e3, e4⟩ := ha
    rw [e1] at e3; cases e3
    exact highest_unique e2 e4
  subst hw
  rcases lt_total b w with h6 | h6 | h6
  · exact h6
  · exact absurd (.inr ⟨himp, .inr ⟨h6, hnj⟩⟩) h5
  · exact absurd (.inr ⟨himp, .inl h6⟩) h5

/-- In particular: for an element with the classes of two styles that both have a loose
declaration of a property, equally important and under at-rules that hold, the one of the
style created first does not win. -/
theorem C91_later_class_wins (s : St) (hn : (s.heap.map Content.id).Nodup) (i : Nat) (p q : Nat) (hpq : p < q)
    (c c' : Content) (hc : s.heap[p]? = some c) (hc' : s.heap[q]? = some c') (S : Setting El) (e : El)
    (hw : S.weight ('.' :: c.id) = S.weight ('.' :: c'.id)) (he : S.doc.meets e ('.' :: c'.id)) (n : Nat) (x y : Said)
    (hx : ((living s i).flatMap Content.said)[n]? = some (some c.id, x)) (hxs : x.selectors = some [])
    (hy : (some c'.id, y) ∈ (living s i).flatMap Content.said) (hys : y.selectors = some [])
    (hyr : ∀ r ∈ y.rules, ¬ c! "keyframes" <:+: r ∧ S.holds r) (hk : y.key = x.key)
    (himp : S.important y.value = S.important x.value) :
    ¬ S.ShouldWin ((living s i).flatMap Content.said) e x.key n := by
  intro hwin
  obtain ⟨z, w, h1, h2, h3, h4⟩ := id hwin
  rw [hx] at h1
  cases h1
  have hb : S.Should (some c'.id) e y (S.weight ('.' :: c'.id)) := by
    refine ⟨hyr, [], hys, ?_, ?_⟩
    · dsimp only
      rw [if_pos rfl]; exact ⟨he, rfl⟩
    · intro m hm
      rw [if_pos rfl] at hm
      rw [hm.2]
      exact lt_irrefl _
  have := C91_later_wins s hn i p q hpq c c' hc hc' S e x.key n x y hx hwin hy hk himp w _ h3 hb
  obtain ⟨-, sels, e1, e2, -⟩ := h3
  rw [hxs] at e1; cases e1
  rw [if_pos rfl] at e2
  rw [e2.2] at this
  exact lt_irrefl _ (hw ▸ this)

/-- Non-vacuity, for the history of C89: the conditions of `C91_on_the_page`, and what the
living styles say. The style of `blue` is created after that of `red`. -/
example : let s := run demoEnv wholeOps (St.init demoPage)
    (∀ c ∈ living s 0, WholeSheet c.key.ast ∧ CleanClass c.id ∧ SelectorsOf (SelectorFor c.cls) c.key.ast) ∧
    (s.heap.map Content.id).Nodup ∧
    (s.heap[0]?).map Content.said = some [(some (c! "stylist-style-0"), ⟨[], some [], c! "color", c! "red"⟩)] ∧
    (s.heap[2]?).map Content.said = some
      [ (some (c! "app-style-2"), ⟨[], some [], c! "color", c! "blue"⟩),
        (some (c! "app-style-2"), ⟨[], some [[c! "&:hover"]], c! "left", c! "0"⟩) ] := by
  refine ⟨?_, by decide +kernel, by decide +kernel, by decide +kernel⟩
  intro c hc
  obtain ⟨p, hp, -⟩ := mem_living.1 hc
  have : ∀ c ∈ (run demoEnv wholeOps (St.init demoPage)).heap,
      WholeSheet c.key.ast ∧ CleanClass c.id ∧ SelectorsOf (SelectorFor c.cls) c.key.ast := by decide +kernel
  exact this c (List.mem_of_getElem? hp)

/-- Later means created later, not used later. In the page of `C89_limit_again`, where the
style of `red` was made again after that of `blue`, an element with both classes is blue. -/
theorem C91_limit_again :
    let s := run demoEnv [.newMgr (c! "stylist") none true none, .create 0 .scoped (.text (c! "color: red;")) false,
      .create 0 .scoped (.text (c! "color: blue;")) false, .create 0 .scoped (.text (c! "color: red;")) false]
      (St.init demoPage)
    let S : Setting Unit := ⟨⟨fun _ => none, fun _ => none,
      fun _ x => x = c! ".stylist-style-0" ∨ x = c! ".stylist-style-1"⟩, usualWeight, fun _ => True, fun _ => false⟩
    s.className 2 = some (c! "stylist-style-0") ∧
    ∃ ds, pageReads (s.dom.childrenOf 0) = some ds ∧ (∀ i, S.Wins ds () (c! "color") i ↔ i = 1) ∧
      (ds[1]?).map Decl.value = some (c! "blue") := by
  refine ⟨C89_limit_again.1, _, C89_limit_again.2, ?_, by decide⟩
  have hm : ∀ (c : Str) (e : Unit), c = c! "stylist-style-0" ∨ c = c! "stylist-style-1" →
      (⟨fun _ => none, fun _ => none, fun _ x => x = c! ".stylist-style-0" ∨ x = c! ".stylist-style-1"⟩ :
        Doc Unit).Matches ('.' :: c) e := by
    rintro c e (rfl | rfl)
    · exact (SelectP.matches_cls (by decide) _ _).2 (.inl rfl)
    · exact (SelectP.matches_cls (by decide) _ _).2 (.inr rfl)
  have hst : ∀ c : Str, c = c! "stylist-style-0" ∨ c = c! "stylist-style-1" → ∀ v m,
      Setting.Strength (⟨⟨fun _ => none, fun _ => none,
        fun _ x => x = c! ".stylist-style-0" ∨ x = c! ".stylist-style-1"⟩, usualWeight, fun _ => True,
        fun _ => false⟩ : Setting Unit) () ⟨['.' :: c], c! "color", v⟩ m ↔ m = ⟨0, 1, 0⟩ := by
    intro c hc v m
    have hl : selectorList [] (.out 0) ('.' :: c) = ['.' :: c] := by rcases hc with rfl | rfl <;> decide
    have hwt : weightOf usualWeight ('.' :: c) = some ⟨0, 1, 0⟩ := by rcases hc with rfl | rfl <;> decide
    have hs : Setting.Strength (⟨⟨fun _ => none, fun _ => none,
        fun _ x => x = c! ".stylist-style-0" ∨ x = c! ".stylist-style-1"⟩, usualWeight, fun _ => True,
        fun _ => false⟩ : Setting Unit) () ⟨['.' :: c], c! "color", v⟩ ⟨0, 1, 0⟩ := by
      refine ⟨[], _, rfl, by simp, by simp, ⟨_, by rw [hl]; simp, hm c () hc, hwt⟩, ?_⟩
      rintro k ⟨t, h1, -, h2⟩
      rw [hl] at h1
      have : t = '.' :: c := by simpa using h1
      subst this
      have h2 : weightOf usualWeight ('.' :: c) = some k := h2
      rw [hwt] at h2; cases h2
      exact lt_irrefl _
    exact ⟨fun h => strength_unique _ _ _ _ _ h hs, fun h => h ▸ hs⟩
  have hwin : Setting.Wins (⟨⟨fun _ => none, fun _ => none,
        fun _ x => x = c! ".stylist-style-0" ∨ x = c! ".stylist-style-1"⟩, usualWeight, fun _ => True,
        fun _ => false⟩ : Setting Unit)
      [⟨[c! ".stylist-style-0"], c! "color", c! "red"⟩, ⟨[c! ".stylist-style-1"], c! "color", c! "blue"⟩] ()
      (c! "color") 1 := by
    refine ⟨_, ⟨0, 1, 0⟩, rfl, rfl, (hst (c! "stylist-style-1") (.inr rfl) _ _).2 rfl, ?_⟩
    intro j b m hj hk hm'
    match j with
    | 0 =>
      cases hj
      rw [(hst (c! "stylist-style-0") (.inl rfl) _ _).1 hm']
      simp [Ahead, Weight.lt]
    | 1 =>
      cases hj
      rw [(hst (c! "stylist-style-1") (.inr rfl) _ _).1 hm']
      simp [Ahead, Weight.lt]
    | n + 2 => simp at hj
  exact fun i => ⟨fun h => winner_unique h hwin, fun h => h ▸ hwin⟩

end Manager
