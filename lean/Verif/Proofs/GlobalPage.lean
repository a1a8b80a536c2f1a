import Verif.Spec.GlobalPage
import Verif.Proofs.Yew
import Verif.Proofs.WholePage

/-!
# Helper lemmas for the page of an application of `Global` components
-/

namespace Yew

open Manager

/-! ## What operations keep -/

theorem run_keep {env : Env} {x p : Nat} : ∀ (ops : List Op) {s : St}, Inv s → s.contentOf x = some p →
    (∀ op ∈ ops, op ≠ .drop x) → (run env ops s).contentOf x = some p
  | [], _, _, h, _ => h
  | op :: ops, _, hi, h, ho =>
    run_keep ops (inv_step env op hi) (contentOf_keep hi h (ho op (by simp))) (fun op' h' => ho op' (by simp [h']))

theorem run_reg {env : Env} {i : Nat} {k : Key} {p : Nat} : ∀ (ops : List Op) {s : St}, Inv s →
    (∀ op ∈ ops, ∀ s, ¬ Makes op s i k) → RegK (run env ops s) i k p → RegK s i k p
  | [], _, _, _, h => h
  | op :: ops, s, hi, ho, h => by
    have h1 := run_reg ops (inv_step env op hi) (fun op' h' => ho op' (by simp [h'])) h
    rcases reg_from hi (step_tr env hi op) h1 rfl with ⟨h2, -⟩ | h2
    · exact h2
    · exact absurd h2 (ho op (by simp) s)

theorem run_heap {env : Env} : ∀ (ops : List Op) {s : St}, Inv s → s.heap.length ≤ (run env ops s).heap.length
  | [], _, _ => Nat.le_refl _
  | op :: ops, s, hi => by
    refine Nat.le_trans ?_ (run_heap ops (inv_step env op hi))
    obtain ⟨n, hn⟩ := ((step_tr env hi op).eff hi).heap
    rw [hn]; simp

theorem run_mgrOf {env : Env} {x i : Nat} : ∀ (ops : List Op) {s : St}, Inv s → s.mgrOf x = some i →
    (∀ op ∈ ops, op ≠ .dropMgr x) → (run env ops s).mgrOf x = some i
  | [], _, _, h, _ => h
  | op :: ops, _, hi, h, ho =>
    run_mgrOf ops (inv_step env op hi) (mgrOf_step hi h (ho op (by simp))) (fun op' h' => ho op' (by simp [h']))

theorem run_mgr {env : Env} {i : Nat} : ∀ (ops : List Op) {s : St} {m : Mgr}, Inv s → s.mgrs[i]? = some m →
    ∃ m', (run env ops s).mgrs[i]? = some m' ∧ m.Same m'
  | [], _, m, _, h => ⟨m, h, .refl m⟩
  | op :: ops, _, _, hi, h => by
    obtain ⟨m1, h1, h2, -⟩ := (step_tr env hi op).mgr h
    obtain ⟨m2, h3, h4⟩ := run_mgr ops (inv_step env op hi) h1
    exact ⟨m2, h3, h2.trans h4⟩

/-- A style that is not registered is made anew. -/
theorem create_new {env : Env} {s s' : St} (hi : Inv s) {mh i h : Nat} {kind : Kind} {src : Source} {fault : Bool} {m : Mgr}
    {ast : Sheet} (h1 : s.mgrOf mh = some i) (h2 : s.mgrs[i]? = some m) (h3 : src.sheet? = some ast)
    (hs : step env (.create mh kind src fault) s = (s', .style h)) (hr : regGet m.reg (kind.key m.pref ast) = none) :
    s'.contentOf h = some s.heap.length := by
  have ht := step_tr env hi (.create mh kind src fault)
  rw [hs] at ht
  cases ht with
  | createHit _ _ _ _ _ i' m' ast' p e1 e2 e3 e4 =>
    rw [h1] at e1; cases e1
    rw [h2] at e2; cases e2
    rw [h3] at e3; cases e3
    rw [hr] at e4; cases e4
  | createStatic _ _ _ _ _ i' m' ast' l log c e1 e2 e3 e4 e5 => simp [St.contentOf, St.modReg, St.modMgr]
  | createMount => simp [St.contentOf, St.modReg, St.modMgr]

theorem dropMemo_mem {o : Order} {c : Comp} {op : Op} (hop : op ∈ dropMemo o c) :
    op = .dropMgr c.mh ∨ op = .unregister c.h ∨ op = .drop c.h := by
  rw [dropMemo] at hop
  split at hop <;> simp [dropGuard] at hop <;> grind

/-! ## One render -/

theorem render_new {env : Env} {o : Order} {mh : Nat} {css : Sheet} {tag : Nat} {fault : Bool} {old : Option Comp}
    {s s' : St} {c : Comp} (hi : Inv s) (hold : ∀ c0 ∈ old, CompOk s c0)
    (hr : render env o mh css tag fault old s = some (s', c)) :
    c.css = css ∧ c.tag = tag ∧
    ((∃ c0 ∈ old, s.mgrOf c0.mh = s.mgrOf mh ∧ c0.css = css ∧ c0.tag = tag ∧ c = c0 ∧
        ∀ x q, s.contentOf x = some q → s'.contentOf x = some q) ∨
      ((∀ c0 ∈ old, ¬ (s.mgrOf c0.mh = s.mgrOf mh ∧ c0.css = css ∧ c0.tag = tag)) ∧
        (∃ i m p, s.mgrOf mh = some i ∧ s.mgrs[i]? = some m ∧ s'.contentOf c.h = some p ∧
          ((∀ q, ¬ RegK s i (globalKey m css) q) → s.heap.length ≤ p)) ∧
        ∀ x q, s.contentOf x = some q → (∀ c0 ∈ old, x ≠ c0.h) → s'.contentOf x = some q)) := by
  rw [render] at hr
  split at hr
  case h_2 => cases hr
  rename_i s1 mh' hcl
  obtain ⟨i, hmi, hlen, hmi'⟩ := cloneMgr_cases hcl
  have hs1 : s1 = (step env (.cloneMgr mh) s).1 := by rw [hcl]
  have hi1 : Inv s1 := hs1 ▸ inv_step env _ hi
  have hmgrs : s1.mgrs = s.mgrs := by rw [hs1]; simp only [step, hmi]
  have hheap : s1.heap = s.heap := by rw [hs1]; simp only [step, hmi]
  have keep1 : ∀ x q, s.contentOf x = some q → s1.contentOf x = some q := fun x q h =>
    hs1 ▸ contentOf_keep hi h (by simp)
  have hreg1 : ∀ k q, RegK s1 i k q → RegK s i k q := by
    rintro k q ⟨m, h1, h2⟩; rw [hmgrs] at h1; exact ⟨m, h1, h2⟩
  obtain ⟨m, hm⟩ := mgrOf_get hi1 hmi'
  have hm0 : s.mgrs[i]? = some m := hmgrs ▸ hm
  -- A creation in a state that the render reaches before it.
  have fresh : ∀ (ops : List Op) (s3 : St) (h : Nat), (∀ op ∈ ops, ∀ s k, ¬ Makes op s i k) →
      (∀ op ∈ ops, op ≠ .dropMgr mh') →
      step env (.create mh' .global (.sheet css) fault) (run env ops s1) = (s3, .style h) →
      ∃ p, s3.contentOf h = some p ∧ ((∀ q, ¬ RegK s i (globalKey m css) q) → s.heap.length ≤ p) := by
    intro ops s3 h ho hd hc
    have hi2 : Inv (run env ops s1) := inv_run env ops hi1
    have hmh2 : (run env ops s1).mgrOf mh' = some i := run_mgrOf ops hi1 hmi' hd
    obtain ⟨m2, hm2, hsame⟩ := run_mgr (env := env) ops hi1 hm
    obtain ⟨p, ct, m', c1, -⟩ := create_style (env := env) (fault := fault) (kind := .global) hi2 hmh2 hm2
      (src := .sheet css) (ast := css) rfl (h := h) (by rw [hc])
    rw [hc] at c1
    refine ⟨p, c1, fun hno => ?_⟩
    have hkey : Kind.global.key m2.pref css = globalKey m css := by rw [globalKey, Kind.key, hsame.1]
    have hnone : regGet m2.reg (Kind.global.key m2.pref css) = none := by
      cases hg : regGet m2.reg (Kind.global.key m2.pref css) with
      | none => rfl
      | some q =>
        rw [hkey] at hg
        exact absurd (hreg1 _ q (run_reg ops hi1 (fun op h' s => ho op h' s _) ⟨m2, hm2, regGet_mem hg⟩)) (hno q)
    have := create_new hi2 hmh2 hm2 (kind := .global) (src := .sheet css) (ast := css) rfl hc hnone
    rw [c1, Option.some.injEq] at this
    rw [this, ← hheap]
    exact run_heap ops hi1
  split at hr
  · split at hr
    case h_2 => cases hr
    rename_i s2 h hcr
    simp only [Option.some.injEq, Prod.mk.injEq] at hr
    obtain ⟨rfl, rfl⟩ := hr
    obtain ⟨p, h1, h2⟩ := fresh [] s2 h (by simp) (by simp) hcr
    refine ⟨rfl, rfl, Or.inr ⟨by simp, ⟨i, m, p, hmi, hm0, h1, h2⟩, fun x q hx _ => ?_⟩⟩
    have := contentOf_keep (env := env) (op := .create mh' .global (.sheet css) fault) hi1 (keep1 x q hx) (by simp)
    rw [hcr] at this; exact this
  · rename_i c0
    have hc0 := hold c0 rfl
    have hmem : s1.mgrOf c0.mh = s.mgrOf c0.mh := by
      have := (hc0.step (env := env) (op := .cloneMgr mh) hi (by simp) (by simp)).2
      rw [← hs1] at this; exact this
    have hne : c0.mh ≠ mh' := by have := hc0.lt.2; omega
    split at hr
    · rename_i hsame
      simp only [Option.some.injEq, Prod.mk.injEq] at hr
      obtain ⟨rfl, rfl⟩ := hr
      simp only [sameDeps, decide_eq_true_eq] at hsame
      obtain ⟨e1, e2, e3⟩ := hsame
      refine ⟨e2, e3, Or.inl ⟨c0, rfl, ?_, e2, e3, rfl, fun x q hx => ?_⟩⟩
      · rw [← hmem, e1, hmi', hmi]
      · exact contentOf_keep (env := env) hi1 (keep1 x q hx) (by simp)
    · rename_i hsame
      have hnot : ∀ c1 ∈ some c0, ¬ (s.mgrOf c1.mh = s.mgrOf mh ∧ c1.css = css ∧ c1.tag = tag) := by
        rintro c1 hc1 ⟨e1, e2, e3⟩
        cases hc1
        apply hsame
        simp only [sameDeps, decide_eq_true_eq]
        exact ⟨by rw [hmem, e1, hmi', hmi], e2, e3⟩
      have hmakes : ∀ op ∈ dropMemo o c0, ∀ s k, ¬ Makes op s i k := by
        intro op hop s k
        rcases dropMemo_mem hop with rfl | rfl | rfl <;> simp [Makes]
      have hdm : ∀ op ∈ dropMemo o c0, op ≠ .dropMgr mh' := by
        intro op hop
        rcases dropMemo_mem hop with rfl | rfl | rfl <;> simp [hne]
      have hkeep : ∀ {t : St} x q, Inv t → t.contentOf x = some q → (∀ c1 ∈ some c0, x ≠ c1.h) →
          (run env (dropMemo o c0) t).contentOf x = some q := by
        intro t x q ht hx hxc
        refine run_keep _ ht hx (fun op hop => ?_)
        have := hxc c0 rfl
        rcases dropMemo_mem hop with rfl | rfl | rfl <;> simp
        exact fun e => this e.symm
      cases hdf : o.dropFirst with
      | true =>
        simp only [hdf, if_true] at hr
        split at hr
        case h_2 => cases hr
        rename_i s3 h hcr
        simp only [Option.some.injEq, Prod.mk.injEq] at hr
        obtain ⟨rfl, rfl⟩ := hr
        obtain ⟨p, h1, h2⟩ := fresh _ s3 h hmakes hdm hcr
        refine ⟨rfl, rfl, Or.inr ⟨hnot, ⟨i, m, p, hmi, hm0, h1, h2⟩, fun x q hx hxc => ?_⟩⟩
        have := contentOf_keep (env := env) (op := .create mh' .global (.sheet css) fault) (inv_run env (dropMemo o c0) hi1)
          (hkeep x q hi1 (keep1 x q hx) hxc) (by simp)
        rw [hcr] at this; exact this
      | false =>
        simp only [hdf, Bool.false_eq_true, if_false] at hr
        split at hr
        case h_2 => cases hr
        rename_i s3 h hcr
        simp only [Option.some.injEq, Prod.mk.injEq] at hr
        obtain ⟨rfl, rfl⟩ := hr
        obtain ⟨p, h1, h2⟩ := fresh [] s3 h (by simp) (by simp) hcr
        have hi3 : Inv s3 := by
          have := inv_step env (.create mh' .global (.sheet css) fault) hi1
          rw [hcr] at this; exact this
        have hh : h = s1.handles.length := step_create_handle (fault := fault) (mh := mh') (kind := .global) (src := .sheet css) hi1 (by rw [hcr])
        refine ⟨rfl, rfl, Or.inr ⟨hnot, ⟨i, m, p, hmi, hm0, ?_, h2⟩, fun x q hx hxc => ?_⟩⟩
        · refine hkeep h p hi3 h1 (fun c1 hc1 => ?_)
          cases hc1
          obtain ⟨_, _, q, _, _, _, hq, _⟩ := hc0
          have := contentOf_lt (keep1 _ _ hq)
          omega
        · have := contentOf_keep (env := env) (op := .create mh' .global (.sheet css) fault) hi1 (keep1 x q hx) (by simp)
          rw [hcr] at this
          exact hkeep x q hi3 this hxc

/-! ## The order of the components -/

/-- The list is that of the mounted components, and their styles were made in its order. -/
structure Ord (a : App) (l : List Shown) : Prop where
  mem : ∀ e, e ∈ l ↔ ∃ c, a.comps[e.comp]? = some (some c) ∧ e.mgr = a.st.mgrOf c.mh ∧ e.css = c.css ∧ e.tag = c.tag
  inc : l.Pairwise (fun e e' => ∀ c c' p p', a.comps[e.comp]? = some (some c) → a.comps[e'.comp]? = some (some c') →
    a.st.contentOf c.h = some p → a.st.contentOf c'.h = some p' → p < p')

theorem Ord.init (d : Dom) : Ord (App.init d) [] :=
  ⟨by simp [App.init], .nil⟩

/-- A component is replaced or added. -/
theorem Ord.replace {a a' : App} {l : List Shown} {j i : Nat} {cp : Comp} {m : Mgr} {p mh : Nat} (h : Ord a l)
    (hok : AppOk a) (hok' : AppOk a')
    (hold : ∀ k, Hold False (Own a.comps) i k a.st)
    (hcs : ∀ j', a'.comps[j']? = if j' = j then some (some cp) else a.comps[j']?)
    (hkeep : ∀ j' c q, j' ≠ j → a.comps[j']? = some (some c) → a.st.contentOf c.h = some q → a'.st.contentOf c.h = some q)
    (hmgr : ∀ j' c, j' ≠ j → a.comps[j']? = some (some c) → a'.st.mgrOf c.mh = a.st.mgrOf c.mh)
    (hcm : a'.st.mgrOf cp.mh = a.st.mgrOf mh) (hmi : a.st.mgrOf mh = some i) (hm : a.st.mgrs[i]? = some m)
    (hp : a'.st.contentOf cp.h = some p)
    (hfresh : (∀ q, ¬ RegK a.st i (globalKey m cp.css) q) → a.st.heap.length ≤ p)
    (hnew : ∀ e ∈ l, ¬ (e.mgr = a.st.mgrOf mh ∧ e.css = cp.css)) :
    Ord a' (l.filter (fun e => decide (e.comp ≠ j)) ++ [⟨j, a.st.mgrOf mh, cp.css, cp.tag⟩]) := by
  have hno : ∀ q, ¬ RegK a.st i (globalKey m cp.css) q := by
    intro q hq
    obtain ⟨x, ⟨j', c, hj', rfl⟩, hx⟩ := ((hold _).reg q hq).resolve_left id
    obtain ⟨b1, m', b2, b3⟩ := ((hok.comp j' c hj').uses hx).1 (hq.isK hok.inv)
    rw [hm] at b2; cases b2
    simp only [globalKey, Key.mk.injEq, true_and] at b3
    exact hnew ⟨j', a.st.mgrOf c.mh, c.css, c.tag⟩ ((h.mem _).2 ⟨c, hj', rfl, rfl, rfl⟩) ⟨by simp [b1, hmi], b3⟩
  have hle := hfresh hno
  have hlt : ∀ {c : Comp} {q : Nat}, a.st.contentOf c.h = some q → q < a.st.heap.length := fun {c q} hq =>
    hok.inv.handle q (contentOf_mem hq)
  constructor
  · intro e
    rw [List.mem_append, List.mem_filter, List.mem_singleton, hcs, h.mem]
    by_cases he : e.comp = j
    · subst he
      simp only [if_true]
      constructor
      · rintro (⟨-, h1⟩ | h1)
        · simp at h1
        · rw [h1]
          exact ⟨cp, rfl, by simp [hcm], rfl, rfl⟩
      · rintro ⟨c, h1, h2, h3, h4⟩
        simp only [Option.some.injEq] at h1
        subst h1
        right
        cases e
        simp_all
    · simp only [he, if_false]
      constructor
      · rintro (⟨⟨c, h1, h2, h3⟩, -⟩ | h1)
        · exact ⟨c, h1, by rw [h2, hmgr _ c he h1], h3⟩
        · rw [h1] at he; exact absurd rfl he
      · rintro ⟨c, h1, h2, h3⟩
        exact Or.inl ⟨⟨c, h1, by rw [h2, hmgr _ c he h1], h3⟩, by simp [he]⟩
  · rw [List.pairwise_append]
    refine ⟨?_, List.pairwise_singleton _ _, ?_⟩
    · refine (List.pairwise_filter.2 ?_)
      refine h.inc.imp ?_
      intro e e' hlt' he he' c c' q q' h1 h2 h3 h4
      simp only [decide_eq_true_eq] at he he'
      rw [hcs, if_neg he] at h1
      rw [hcs, if_neg he'] at h2
      obtain ⟨_, _, r, _, _, _, hr, _⟩ := hok.comp _ c h1
      obtain ⟨_, _, r', _, _, _, hr', _⟩ := hok.comp _ c' h2
      have e1 := hkeep _ c r he h1 hr
      have e2 := hkeep _ c' r' he' h2 hr'
      rw [h3] at e1; cases e1
      rw [h4] at e2; cases e2
      exact hlt' c c' q q' h1 h2 hr hr'
    · intro e he e' he' c c' q q' h1 h2 h3 h4
      rw [List.mem_singleton] at he'
      subst he'
      obtain ⟨he1, he2⟩ := List.mem_filter.1 he
      simp only [decide_eq_true_eq] at he2
      rw [hcs, if_neg he2] at h1
      rw [hcs, if_pos rfl] at h2
      cases h2
      rw [hp] at h4; cases h4
      obtain ⟨_, _, r, _, _, _, hr, _⟩ := hok.comp _ c h1
      have e1 := hkeep _ c r he2 h1 hr
      rw [h3] at e1; cases e1
      have := hlt hr
      omega

/-- Some components go, the others stay as they are. -/
theorem Ord.keep {a a' : App} {l : List Shown} (h : Ord a l) (hok : AppOk a) (f : Nat → Bool)
    (hcs : ∀ j c, a'.comps[j]? = some (some c) ↔ f j = true ∧ a.comps[j]? = some (some c))
    (hkeep : ∀ j c q, f j = true → a.comps[j]? = some (some c) → a.st.contentOf c.h = some q → a'.st.contentOf c.h = some q)
    (hmgr : ∀ j c, f j = true → a.comps[j]? = some (some c) → a'.st.mgrOf c.mh = a.st.mgrOf c.mh) :
    Ord a' (l.filter (fun e => f e.comp)) := by
  constructor
  · intro e
    rw [List.mem_filter, h.mem]
    constructor
    · rintro ⟨⟨c, h1, h2, h3⟩, h4⟩
      exact ⟨c, (hcs _ _).2 ⟨h4, h1⟩, by rw [h2, hmgr _ c h4 h1], h3⟩
    · rintro ⟨c, h1, h2, h3⟩
      obtain ⟨h4, h5⟩ := (hcs _ _).1 h1
      exact ⟨⟨c, h5, by rw [h2, hmgr _ c h4 h5], h3⟩, h4⟩
  · rw [List.pairwise_filter]
    refine h.inc.imp ?_
    intro e e' hlt' he he' c c' q q' h1 h2 h3 h4
    obtain ⟨-, h1⟩ := (hcs _ _).1 h1
    obtain ⟨-, h2⟩ := (hcs _ _).1 h2
    obtain ⟨_, _, r, _, _, _, hr, _⟩ := hok.comp _ c h1
    obtain ⟨_, _, r', _, _, _, hr', _⟩ := hok.comp _ c' h2
    have e1 := hkeep _ c r he h1 hr
    have e2 := hkeep _ c' r' he' h2 hr'
    rw [h3] at e1; cases e1
    rw [h4] at e2; cases e2
    exact hlt' c c' q q' h1 h2 hr hr'

/-- Every mounted component is in the list once. -/
theorem Ord.pos {a : App} {l : List Shown} (h : Ord a l) {e e' : Shown} (h1 : e ∈ l) (h2 : e' ∈ l) (h3 : e.comp = e'.comp) :
    e = e' := by
  obtain ⟨c, a1, a2, a3, a4⟩ := (h.mem e).1 h1
  obtain ⟨c', b1, b2, b3, b4⟩ := (h.mem e').1 h2
  rw [h3, b1] at a1
  cases a1
  cases e; cases e'
  simp_all

theorem filter_true' {l : List Shown} : l.filter (fun _ => true) = l := by simp

theorem event_ord {env : Env} {o : Order} {a a' : App} {e : Event} {l : List Shown} (hok : AppOk a)
    (he : event env o a e = some a') (h : Ord a l) (hold : ∀ i k, Hold False (Own a.comps) i k a.st)
    (hnew : NewCss a l e) : Ord a' (shownAfter a l e) := by
  have hok' := (event_ok hok he).1
  have hprops := (event_ok hok he).2.2.1
  cases e with
  | mount mh css tag fault =>
    simp only [event] at he
    split at he
    · cases he
    simp only [Option.map_eq_some_iff, Prod.exists] at he
    obtain ⟨s', c, hr, rfl⟩ := he
    obtain ⟨rfl, rfl, h1⟩ := render_new (old := none) hok.inv (by simp) hr
    rcases h1 with ⟨c0, hc0, -⟩ | ⟨-, ⟨i, m, p, h1, h2, h3, h4⟩, h5⟩
    · cases hc0
    obtain ⟨-, -, r3, -, -, r6, -⟩ := render_ok (old := none) hok.inv (by simp) hr
    have hfil : l.filter (fun e => decide (e.comp ≠ a.comps.length)) = l := by
      rw [List.filter_eq_self]
      intro e he
      obtain ⟨c, h1, -⟩ := (h.mem e).1 he
      have := (List.getElem?_eq_some_iff.1 h1).1
      simp only [decide_eq_true_eq]; omega
    have := h.replace (a' := { st := s', comps := a.comps ++ [some c] }) (j := a.comps.length) (cp := c) (mh := mh) hok hok' (hold i)
      (fun j' => ?_) (fun j' c' q hj hc hq => h5 c'.h q hq (by simp))
      (fun j' c' hj hc => (r6 c' (hok.comp j' c' hc) (by simp)).2.1) r3 h1 h2 h3 h4 hnew
    · rw [hfil] at this
      exact this
    · by_cases hj : j' = a.comps.length
      · subst hj; simp
      · rw [if_neg hj]
        rcases Nat.lt_or_gt_of_ne hj with h' | h'
        · exact List.getElem?_append_left h'
        · rw [List.getElem?_eq_none (by simp; omega), List.getElem?_eq_none (by omega)]
  | update j mh css tag fault =>
    simp only [event] at he
    split at he
    · cases he
    split at he
    case h_2 => cases he
    rename_i old hj
    simp only [Option.map_eq_some_iff, Prod.exists] at he
    obtain ⟨s', c, hr, rfl⟩ := he
    have hjlt := (List.getElem?_eq_some_iff.1 hj).1
    have hold' : ∀ c0 ∈ some old, CompOk a.st c0 := by
      intro c0 h0; cases h0; exact hok.comp j old hj
    obtain ⟨rfl, rfl, h1⟩ := render_new (old := some old) hok.inv hold' hr
    obtain ⟨-, -, r3, -, -, r6, -⟩ := render_ok (old := some old) hok.inv hold' hr
    have happ : ∀ j' c', j' ≠ j → a.comps[j']? = some (some c') → ∀ c0 ∈ some old, c'.h ≠ c0.h ∧ c'.mh ≠ c0.mh := by
      intro j' c' hne hc c0 h0
      cases h0
      exact hok.apart j' j c' old hc hj hne
    have hmem : (⟨j, a.st.mgrOf mh, c.css, c.tag⟩ : Shown) ∈ l ↔
        a.st.mgrOf old.mh = a.st.mgrOf mh ∧ old.css = c.css ∧ old.tag = c.tag := by
      rw [h.mem]
      simp only [hj]
      constructor
      · rintro ⟨c1, h1, h2, h3, h4⟩
        cases h1
        exact ⟨h2.symm, h3.symm, h4.symm⟩
      · rintro ⟨h2, h3, h4⟩
        exact ⟨old, rfl, h2.symm, h3.symm, h4.symm⟩
    simp only [shownAfter]
    rcases h1 with ⟨c0, hc0, e1, e2, e3, rfl, h5⟩ | ⟨hno, ⟨i, m, p, h1, h2, h3, h4⟩, h5⟩
    · cases hc0
      rw [if_pos (hmem.2 ⟨e1, rfl, rfl⟩)]
      have hset : a.comps.set j (some old) = a.comps := by
        apply List.ext_getElem?
        intro j'
        by_cases hjj : j' = j
        · rw [hjj, List.getElem?_set_self hjlt, hj]
        · rw [List.getElem?_set_ne (fun e => hjj e.symm)]
      have := h.keep (a' := { st := s', comps := a.comps.set j (some old) }) hok (fun _ => true) (by simp [hset])
        (fun j' c' q _ hc hq => h5 c'.h q hq) (fun j' c' _ hc => ?_)
      · rwa [filter_true'] at this
      · by_cases hjj : j' = j
        · subst hjj
          rw [hj] at hc; cases hc
          rw [r3, e1]
        · exact (r6 c' (hok.comp j' c' hc) (happ j' c' hjj hc)).2.1
    · have hno' := hno old rfl
      rw [if_neg (fun hh => hno' (hmem.1 hh))]
      refine h.replace (a' := { st := s', comps := a.comps.set j (some c) }) (j := j) (cp := c) (mh := mh) hok hok' (hold i)
        (fun j' => ?_) (fun j' c' q hne hc hq => h5 c'.h q hq (fun c0 h0 => (happ j' c' hne hc c0 h0).1))
        (fun j' c' hne hc => (r6 c' (hok.comp j' c' hc) (happ j' c' hne hc)).2.1) r3 h1 h2 h3 h4 ?_
      · by_cases hjj : j' = j
        · subst hjj; rw [if_pos rfl, List.getElem?_set_self hjlt]
        · rw [if_neg hjj, List.getElem?_set_ne (fun e => hjj e.symm)]
      · rcases hnew with hh | hh
        · exact absurd (hmem.1 hh) hno'
        · exact hh
  | unmount j =>
    simp only [event] at he
    split at he
    case h_2 => cases he
    rename_i c hj
    simp only [Option.some.injEq] at he
    subst he
    have hjlt := (List.getElem?_eq_some_iff.1 hj).1
    refine h.keep (a' := { st := run env (dropMemo o c) a.st, comps := a.comps.set j none }) hok
      (fun j' => decide (j' ≠ j)) ?_ ?_ ?_
    · intro j' c'
      by_cases hjj : j' = j
      · subst hjj; simp [List.getElem?_set_self hjlt]
      · simp [List.getElem?_set_ne (fun e => hjj e.symm), hjj]
    · intro j' c' q hne hc hq
      simp only [decide_eq_true_eq] at hne
      obtain ⟨h1, h2⟩ := hok.apart j' j c' c hc hj hne
      exact run_keep _ hok.inv hq (fun op hop => (dropMemo_ne h1 h2 op hop).1)
    · intro j' c' hne hc
      simp only [decide_eq_true_eq] at hne
      obtain ⟨h1, h2⟩ := hok.apart j' j c' c hc hj hne
      exact ((hok.comp j' c' hc).run _ hok.inv (dropMemo_ne h1 h2)).2
  | other op =>
    simp only [event] at he
    split at he
    · cases he
    rename_i hpr
    simp only [Option.some.injEq] at he
    subst he
    have hpr : a.private op = false := by simpa using hpr
    have hd : ∀ (j : Nat) (c : Comp), a.comps[j]? = some (some c) → op ≠ .drop c.h ∧ op ≠ .dropMgr c.mh := by
      intro j c hc
      constructor
      · rintro rfl
        exact not_private_style hpr (Or.inr (Or.inl rfl)) ⟨j, c, hc, rfl⟩
      · rintro rfl
        exact absurd rfl (not_private_mgr hpr hc)
    have := h.keep (a' := { a with st := (step env op a.st).1 }) hok (fun _ => true) (by simp)
      (fun j c q _ hc hq => contentOf_keep hok.inv hq (hd j c hc).1)
      (fun j c _ hc => ((hok.comp j c hc).step (env := env) hok.inv (hd j c hc).1 (hd j c hc).2).2)
    rw [filter_true'] at this
    exact this

theorem events_ord {env : Env} {o : Order} : ∀ (es : List Event) {a a' : App} {l : List Shown}, AppOk a →
    events env o es a = some a' → Ord a l → (∀ i k, Hold False (Own a.comps) i k a.st) → OnlyGlobalStyles es →
    Different env o es a l → Ord a' (shown env o es a l) ∧ ∀ i k, Hold False (Own a'.comps) i k a'.st
  | [], a, a', l, hok, he, h, hh, _, _ => by
    simp only [events, Option.some.injEq] at he
    subst he
    exact ⟨h, hh⟩
  | e :: es, a, a', l, hok, he, h, hh, ho, hd => by
    simp only [events, Option.bind_eq_some_iff] at he
    obtain ⟨a1, he1, he2⟩ := he
    obtain ⟨h1, -, -, h4⟩ := event_ok hok he1
    have hog : ∀ i k, OnlyGlobals i k a e := by
      rintro i k op rfl (⟨mh, kind, src, fault, m, ast, rfl, -⟩ | ⟨mh, data, e, rfl, -⟩)
      · exact (ho _ List.mem_cons_self).1 _ _ _ _ rfl
      · exact (ho _ List.mem_cons_self).2 _ _ rfl
    rw [shown, he1]
    exact events_ord es h1 he2 (event_ord hok he1 h hh hd.1) (fun i k => h4 False False i k (hh i k) (hog i k) (fun h _ => h))
      (fun e' he' => ho e' (by simp [he'])) (hd.2 a1 he1)

/-! ## The styles that are alive -/

theorem sorted_eq : ∀ {l l' : List Nat}, l.Pairwise (· < ·) → l'.Pairwise (· < ·) → (∀ x, x ∈ l ↔ x ∈ l') → l = l'
  | [], [], _, _, _ => rfl
  | [], y :: l', _, _, h => absurd ((h y).2 (by simp)) (by simp)
  | x :: l, [], _, _, h => absurd ((h x).1 (by simp)) (by simp)
  | x :: l, y :: l', h1, h2, h => by
    rw [List.pairwise_cons] at h1 h2
    have hxy : x = y := by
      have a1 := (h x).1 (by simp)
      have a2 := (h y).2 (by simp)
      simp only [List.mem_cons] at a1 a2
      rcases a1 with a1 | a1
      · exact a1
      · rcases a2 with a2 | a2
        · exact a2.symm
        · have := h1.1 y a2
          have := h2.1 x a1
          omega
    subst hxy
    congr 1
    refine sorted_eq h1.2 h2.2 (fun z => ?_)
    have := h z
    simp only [List.mem_cons] at this
    constructor
    · intro hz
      rcases this.1 (Or.inr hz) with rfl | h'
      · exact absurd (h1.1 _ hz) (Nat.lt_irrefl _)
      · exact h'
    · intro hz
      rcases this.2 (Or.inr hz) with rfl | h'
      · exact absurd (h2.1 _ hz) (Nat.lt_irrefl _)
      · exact h'

/-- Where the style of a mounted component is. -/
def ptr (a : App) (e : Shown) : Option Nat := (a.comps[e.comp]?).join.bind (fun c => a.st.contentOf c.h)

theorem Ord.ptr {a : App} {l : List Shown} (h : Ord a l) (hok : AppOk a) {e : Shown} (he : e ∈ l) :
    ∃ i m p ct, e.mgr = some i ∧ a.st.mgrs[i]? = some m ∧ ptr a e = some p ∧ a.st.heap[p]? = some ct ∧ ct.mgr = i ∧
      ct.key = globalKey m e.css := by
  obtain ⟨c, h1, h2, h3, -⟩ := (h.mem e).1 he
  obtain ⟨i, m, p, ct, a1, a2, a3, a4, a5, a6⟩ := hok.comp _ c h1
  exact ⟨i, m, p, ct, by rw [h2, a1], a2, by simp [Yew.ptr, h1, a3], a4, a5, by rw [a6, h3]⟩

theorem ptr_inc {a : App} {l : List Shown} (h : Ord a l) : (l.filterMap (ptr a)).Pairwise (· < ·) := by
  rw [List.pairwise_filterMap]
  refine h.inc.imp ?_
  intro e e' hlt p hp p' hp'
  simp only [ptr, Option.bind_eq_some_iff, Option.join_eq_some_iff] at hp hp'
  obtain ⟨c, h1, h2⟩ := hp
  obtain ⟨c', h1', h2'⟩ := hp'
  exact hlt c c' p p' h1 h1' h2 h2'

theorem alive_ptr {a : App} {l : List Shown} (h : Ord a l) (hok : AppOk a) (hh : ∀ i k, Hold False (Own a.comps) i k a.st)
    (p : Nat) (hp : p < a.st.heap.length) : a.st.Alive p ↔ p ∈ l.filterMap (ptr a) := by
  rw [List.mem_filterMap]
  constructor
  · intro hal
    have hc := List.getElem?_eq_getElem hp
    have hk : IsK a.st a.st.heap[p].mgr a.st.heap[p].key p := ⟨_, hc, rfl, rfl⟩
    have hx : ∃ x, Own a.comps x ∧ a.st.contentOf x = some p := by
      rcases alive_cases hok.inv hk hal with ⟨x, hx⟩ | hr
      · exact ⟨x, (hh _ _).handle x p hx hk, hx⟩
      · exact ((hh _ _).reg p hr).resolve_left id
    obtain ⟨x, ⟨j, c, hj, rfl⟩, hx⟩ := hx
    exact ⟨⟨j, a.st.mgrOf c.mh, c.css, c.tag⟩, (h.mem _).2 ⟨c, hj, rfl, rfl, rfl⟩, by simp [ptr, hj, hx]⟩
  · rintro ⟨e, -, he⟩
    simp only [ptr, Option.bind_eq_some_iff] at he
    obtain ⟨c, -, hc⟩ := he
    exact Or.inl (contentOf_mem hc)

/-- The css of the living styles is that of the mounted components, in order. -/
theorem living_shown {a : App} {l : List Shown} (h : Ord a l) (hok : AppOk a)
    (hh : ∀ i k, Hold False (Own a.comps) i k a.st) (hload : ∀ c ∈ a.st.heap, c.origin = .created)
    (hlog : ∀ m ∈ a.st.mgrs, m.log = none) (i : Nat) :
    (living a.st i).map (fun c => (c.key.isGlobal, c.key.ast)) =
      (l.filter (fun e => e.within a.st i)).map (fun e => (true, e.css)) := by
  classical
  have e1 : (List.range a.st.heap.length).filter (fun p => decide (a.st.Alive p)) = l.filterMap (ptr a) := by
    refine sorted_eq (List.pairwise_lt_range.filter _) (ptr_inc h) (fun p => ?_)
    rw [List.mem_filter, List.mem_range, decide_eq_true_eq]
    constructor
    · rintro ⟨h1, h2⟩
      exact (alive_ptr h hok hh p h1).1 h2
    · intro hp
      obtain ⟨e, he, hpe⟩ := List.mem_filterMap.1 hp
      obtain ⟨_, _, p', ct, -, -, b3, b4, -⟩ := h.ptr hok he
      rw [hpe] at b3; cases b3
      have hlt := (List.getElem?_eq_some_iff.1 b4).1
      exact ⟨hlt, (alive_ptr h hok hh p hlt).2 hp⟩
  have e2 : living a.st i = (l.filterMap (ptr a)).filterMap (fun p => (a.st.heap[p]?).filter fun c => decide (Mounts a.st c i)) := by
    rw [← e1, List.filterMap_filter, living]
    congr 1
    funext p
    by_cases hal : a.st.Alive p
    · simp only [hal, true_and, decide_true, if_true]
    · simp only [hal, false_and, decide_false, Bool.false_eq_true, if_false]
      cases a.st.heap[p]? with
      | none => rfl
      | some c => simp
  rw [e2, List.filterMap_filterMap, List.map_filterMap]
  have : ∀ l' : List Shown, (∀ e ∈ l', e ∈ l) →
      l'.filterMap (fun e => ((ptr a e).bind fun p => (a.st.heap[p]?).filter fun c => decide (Mounts a.st c i)).map
        (fun c => (c.key.isGlobal, c.key.ast))) = (l'.filter (fun e => e.within a.st i)).map (fun e => (true, e.css)) := by
    intro l'
    induction l' with
    | nil => intro _; rfl
    | cons e l' ih =>
      intro hsub
      obtain ⟨k, m, p, ct, b1, b2, b3, b4, b5, b6⟩ := h.ptr hok (hsub e (by simp))
      have hmem := List.mem_of_getElem? b4
      have hm : Mounts a.st ct i ↔ e.within a.st i = true := by
        simp only [Mounts, Shown.within, b1, b5, b2, Option.any_some, decide_eq_true_eq, Option.some.injEq,
          exists_eq_left', hload ct hmem, true_and, hlog m (List.mem_of_getElem? b2)]
      rw [List.filterMap_cons, List.filter_cons, ih (fun e' he' => hsub e' (by simp [he']))]
      simp only [b3, Option.bind_some, b4, Option.filter_some, decide_eq_true_eq, hm]
      by_cases hw : e.within a.st i = true
      · simp [hw, b6, globalKey]
      · simp [hw]
  exact this l (fun _ h => h)

/-! ## All styles are those of `Global` components -/

/-- An operation that makes no style but a global one. -/
def Tame (op : Op) : Prop :=
  (∀ mh kind src fault, op = .create mh kind src fault → kind = .global) ∧ ∀ mh data, op ≠ .load mh data

/-- Every style was made, with the prefix of its manager. -/
def AllGlobal (s : St) : Prop :=
  ∀ c ∈ s.heap, c.origin = .created ∧ ∃ m, s.mgrs[c.mgr]? = some m ∧ c.key.pref = m.pref

theorem AllGlobal.step {env : Env} {op : Op} {s : St} (hi : Inv s) (ht : Tame op) (h : AllGlobal s) :
    AllGlobal (Manager.step env op s).1 := by
  have htr := step_tr env hi op
  generalize (Manager.step env op s).1 = s' at htr
  generalize (Manager.step env op s).2 = out at htr
  have old : ∀ c ∈ s.heap, c.origin = .created ∧ ∃ m, s'.mgrs[c.mgr]? = some m ∧ c.key.pref = m.pref := by
    intro c hc
    obtain ⟨h1, m, h2, h3⟩ := h c hc
    obtain ⟨m', h4, h5, -⟩ := htr.mgr h2
    exact ⟨h1, m', h4, by rw [h3, h5.1]⟩
  have new : ∀ mh kind src fault i m ast, op = .create mh kind src fault → s.mgrs[i]? = some m →
      s'.heap = s.heap ++ [newContent env s i (kind.key m.pref ast)] → AllGlobal s' := by
    intro mh kind src fault i m ast ho hm hh c hc
    rw [hh, List.mem_append, List.mem_singleton] at hc
    rcases hc with hc | rfl
    · exact old c hc
    · obtain ⟨m', h4, h5, -⟩ := htr.mgr hm
      refine ⟨rfl, m', h4, ?_⟩
      rw [ht.1 _ _ _ _ ho]
      exact h5.1.symm
  have same : s'.heap = s.heap → AllGlobal s' := fun hh c hc => old c (hh ▸ hc)
  cases htr with
  | dropMgrLast mh i _ m0 h ha hm0 => exact same (releaseAll_fields env _ _).1
  | createStatic mh kind src fault _ i m0 ast l log c h hm0 hs hg hc =>
    exact new mh kind src fault i m0 ast rfl hm0 (by rw [← hc]; rfl)
  | createFail mh kind src fault _ i m0 ast c h hm0 hs hg hc =>
    exact new mh kind src fault i m0 ast rfl hm0 (by rw [← hc])
  | createMount mh kind src fault _ i m0 ast c d h hm0 hs hg hc =>
    exact new mh kind src fault i m0 ast rfl hm0 (by rw [← hc]; rfl)
  | drop h p _ e => exact same (release_fields env _ _).1
  | unregister => exact same (release_fields env _ _).1
  | load mh i data _ _ r _ h hr _ => exact absurd rfl (ht.2 _ _)
  | _ => exact same rfl

theorem AllGlobal.run {env : Env} : ∀ (ops : List Op) {s : St}, Inv s → (∀ op ∈ ops, Tame op) → AllGlobal s →
    AllGlobal (Manager.run env ops s)
  | [], _, _, _, h => h
  | op :: ops, _, hi, ht, h =>
    AllGlobal.run ops (inv_step env op hi) (fun o ho => ht o (by simp [ho])) (h.step hi (ht op (by simp)))

theorem dropMemo_tame {o : Order} {c : Comp} : ∀ op ∈ dropMemo o c, Tame op := by
  intro op hop
  rcases dropMemo_mem hop with rfl | rfl | rfl <;> simp [Tame]

theorem render_tame {env : Env} {o : Order} {mh : Nat} {css : Sheet} {tag : Nat} {fault : Bool} {old : Option Comp}
    {s s' : St} {c : Comp} (hi : Inv s) (hg : AllGlobal s) (hr : render env o mh css tag fault old s = some (s', c)) :
    AllGlobal s' := by
  rw [render] at hr
  split at hr
  case h_2 => cases hr
  rename_i s1 mh' hcl
  have hi1 : Inv s1 := by have := inv_step env (.cloneMgr mh) hi; rwa [hcl] at this
  have hg1 : AllGlobal s1 := by have := hg.step (env := env) (op := .cloneMgr mh) hi (by simp [Tame]); rwa [hcl] at this
  have hcr : ∀ {t t' : St} {x : Out}, Inv t → AllGlobal t →
      step env (.create mh' .global (.sheet css) fault) t = (t', x) → Inv t' ∧ AllGlobal t' := by
    intro t t' x h1 h2 h3
    have a1 := inv_step env (.create mh' .global (.sheet css) fault) h1
    have a2 := h2.step (env := env) (op := .create mh' .global (.sheet css) fault) h1
      ⟨by intro a b c d h; simp only [Op.create.injEq] at h; exact h.2.1.symm, by simp⟩
    rw [h3] at a1 a2
    exact ⟨a1, a2⟩
  have hdm : ∀ {t : St} {c0 : Comp}, Inv t → AllGlobal t → Inv (run env (dropMemo o c0) t) ∧
      AllGlobal (run env (dropMemo o c0) t) := fun h1 h2 => ⟨inv_run env _ h1, h2.run _ h1 dropMemo_tame⟩
  split at hr
  · split at hr
    case h_2 => cases hr
    rename_i s2 h hc
    simp only [Option.some.injEq, Prod.mk.injEq] at hr
    obtain ⟨rfl, -⟩ := hr
    exact (hcr hi1 hg1 hc).2
  · rename_i c0
    split at hr
    · simp only [Option.some.injEq, Prod.mk.injEq] at hr
      obtain ⟨rfl, -⟩ := hr
      exact hg1.step hi1 (by simp [Tame])
    · cases hdf : o.dropFirst with
      | true =>
        simp only [hdf, if_true] at hr
        split at hr
        case h_2 => cases hr
        rename_i s3 h hc
        simp only [Option.some.injEq, Prod.mk.injEq] at hr
        obtain ⟨rfl, -⟩ := hr
        exact (hcr (hdm hi1 hg1).1 (hdm hi1 hg1).2 hc).2
      | false =>
        simp only [hdf, Bool.false_eq_true, if_false] at hr
        split at hr
        case h_2 => cases hr
        rename_i s3 h hc
        simp only [Option.some.injEq, Prod.mk.injEq] at hr
        obtain ⟨rfl, -⟩ := hr
        have := hcr hi1 hg1 hc
        exact (hdm this.1 this.2).2

theorem events_tame {env : Env} {o : Order} : ∀ (es : List Event) {a a' : App}, AppOk a →
    events env o es a = some a' → OnlyGlobalStyles es → AllGlobal a.st → AllGlobal a'.st
  | [], a, a', _, he, _, h => by
    simp only [events, Option.some.injEq] at he
    exact he ▸ h
  | e :: es, a, a', hok, he, ho, h => by
    simp only [events, Option.bind_eq_some_iff] at he
    obtain ⟨a1, he1, he2⟩ := he
    refine events_tame es (event_ok hok he1).1 he2 (fun e' he' => ho e' (by simp [he'])) ?_
    cases e with
    | mount mh css tag fault =>
      simp only [event] at he1
      split at he1
      · cases he1
      simp only [Option.map_eq_some_iff, Prod.exists] at he1
      obtain ⟨s', c, hr, rfl⟩ := he1
      exact render_tame hok.inv h hr
    | update j mh css tag fault =>
      simp only [event] at he1
      split at he1
      · cases he1
      split at he1
      case h_2 => cases he1
      simp only [Option.map_eq_some_iff, Prod.exists] at he1
      obtain ⟨s', c, hr, rfl⟩ := he1
      exact render_tame hok.inv h hr
    | unmount j =>
      simp only [event] at he1
      split at he1
      case h_2 => cases he1
      simp only [Option.some.injEq] at he1
      subst he1
      exact h.run _ hok.inv dropMemo_tame
    | other op =>
      simp only [event] at he1
      split at he1
      · cases he1
      simp only [Option.some.injEq] at he1
      subst he1
      refine h.step hok.inv ⟨?_, ?_⟩
      · rintro mh kind src fault rfl
        exact absurd rfl ((ho _ List.mem_cons_self).1 mh kind src fault)
      · rintro mh data rfl
        exact absurd rfl ((ho _ List.mem_cons_self).2 mh data)

end Yew
