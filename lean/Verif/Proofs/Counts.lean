import Verif.Model.Counts
import Verif.Spec.Counts
import Verif.Proofs.Manager

/-!
# The counts are exact
-/

namespace Counts

open Manager Spec.Counts

/-! ## Counting -/

theorem howMany_zero (f : Nat → Bool) : howMany 0 f = 0 := rfl

theorem howMany_succ (n : Nat) (f : Nat → Bool) :
    howMany (n + 1) f = howMany n f + (if f n then 1 else 0) := by
  simp only [howMany, List.range_succ, List.filter_append, List.length_append]
  cases h : f n <;> simp [h]

theorem howMany_congr {f g : Nat → Bool} : ∀ (n : Nat), (∀ q, q < n → f q = g q) → howMany n f = howMany n g
  | 0, _ => rfl
  | n + 1, h => by
    rw [howMany_succ, howMany_succ, howMany_congr n (fun q hq => h q (by omega)), h n (by omega)]

theorem howMany_point {f g : Nat → Bool} {p : Nat} (h : ∀ q, q ≠ p → f q = g q) : ∀ (n : Nat), p < n →
    howMany n f + (if g p then 1 else 0) = howMany n g + (if f p then 1 else 0)
  | 0, hp => by omega
  | n + 1, hp => by
    rw [howMany_succ, howMany_succ]
    by_cases hn : p = n
    · subst hn
      rw [howMany_congr p (fun q hq => h q (by omega))]
      omega
    · have := howMany_point h n (by omega)
      rw [h n (fun e => hn e.symm)]
      omega

theorem sum_modify {α : Type} (w : α → Nat) (f : α → α) : ∀ (l : List α) (i : Nat) (a : α), l[i]? = some a →
    ((l.modify i f).map w).sum + w a = (l.map w).sum + w (f a)
  | [], i, a, h => by simp at h
  | x :: l, 0, a, h => by
    simp at h
    subst h
    simp
    omega
  | x :: l, i + 1, a, h => by
    have := sum_modify w f l i a (by simpa using h)
    simp
    omega

theorem count_set_none {l : List (Option Nat)} : ∀ {h p : Nat}, l[h]? = some (some p) → ∀ q,
    (l.set h none).count (some q) + (if q = p then 1 else 0) = l.count (some q) := by
  induction l with
  | nil => intro h p e; simp at e
  | cons x l ih =>
    intro h p e q
    cases h with
    | zero =>
      simp at e
      subst e
      by_cases hq : q = p
      · subst hq; simp
      · have : p ≠ q := fun e => hq e.symm
        simp [hq, this, List.count_cons]
    | succ h =>
      have := ih (by simpa using e : l[h]? = some (some p)) q
      simp only [List.set_cons_succ, List.count_cons]
      omega

theorem count_append_some (l : List (Option Nat)) (p q : Nat) :
    (l ++ [some p]).count (some q) = l.count (some q) + (if q = p then 1 else 0) := by
  by_cases h : q = p
  · subst h; simp
  · have : p ≠ q := fun e => h e.symm
    simp [h, this, List.count_cons]

/-! ## References in local variables -/

/-- References that no value of the state owns. -/
structure Locals where
  content : Nat → Nat
  key : Nat → Nat
  mgr : Nat → Nat
  weak : Nat → Nat
  log : Nat → Nat

/-- None. -/
def Locals.none : Locals := ⟨fun _ => 0, fun _ => 0, fun _ => 0, fun _ => 0, fun _ => 0⟩

/-- Style `q` is alive, by its count, and belongs to manager `i`. -/
def living (content : Nat → Nat) (heap : List Content) (i q : Nat) : Bool :=
  content q ≠ 0 && (heap[q]?).map Content.mgr = some i

/-- Manager `i` is alive, by its count, and writes to `l`. -/
def holding (mgr : Nat → Nat) (mgrs : List Mgr) (l i : Nat) : Bool :=
  mgr i ≠ 0 && (mgrs[i]?).bind Mgr.log = some l

/-- The counts are right. -/
structure Exact (L : Locals) (m : Mem) : Prop where
  content : ∀ p, m.content p = owners m.st p + L.content p
  key : ∀ p, m.key p = (if m.content p = 0 then 0 else 1) + entries m.st p + L.key p
  mgr : ∀ i, m.mgr i = clones m.st i + L.mgr i
  weak : ∀ i, m.weak i = (if m.mgr i = 0 then 0 else 1) + howMany m.st.heap.length (living m.content m.st.heap i) + L.weak i
  log : ∀ l, m.log l = ends m.st l + howMany m.st.mgrs.length (holding m.mgr m.st.mgrs l) + L.log l
  under : m.under = false

theorem owners_eq (s : St) (p : Nat) : owners s p = s.refs p := rfl

theorem Exact.dropKey {L : Locals} {m : Mem} {p : Nat} (h : Exact { L with key := inc L.key p } m) :
    Exact L (dropKey p m) where
  content := h.content
  key := fun q => by
    have := h.key q
    simp only [Counts.dropKey, dec, inc] at this ⊢
    by_cases e : q = p
    · simp only [e, if_true] at this ⊢
      omega
    · simp only [e, if_false] at this ⊢
      exact this
  mgr := h.mgr
  weak := h.weak
  log := h.log
  under := by
    have := h.key p
    simp only [inc, if_true] at this
    simp only [Counts.dropKey, h.under, Bool.false_or, beq_eq_false_iff_ne]
    omega

theorem Exact.dropWeak {L : Locals} {m : Mem} {i : Nat} (h : Exact { L with weak := inc L.weak i } m) :
    Exact L (dropWeak i m) where
  content := h.content
  key := h.key
  mgr := h.mgr
  weak := fun q => by
    have := h.weak q
    simp only [Counts.dropWeak, dec, inc] at this ⊢
    by_cases e : q = i
    · simp only [e, if_true] at this ⊢
      omega
    · simp only [e, if_false] at this ⊢
      exact this
  log := h.log
  under := by
    have := h.weak i
    simp only [inc, if_true] at this
    simp only [Counts.dropWeak, h.under, Bool.false_or, beq_eq_false_iff_ne]
    omega

theorem Exact.dropLog {L : Locals} {m : Mem} {l : Nat} (h : Exact { L with log := inc L.log l } m) :
    Exact L (dropLog l m) where
  content := h.content
  key := h.key
  mgr := h.mgr
  weak := h.weak
  log := fun q => by
    have := h.log q
    simp only [Counts.dropLog, dec, inc] at this ⊢
    by_cases e : q = l
    · simp only [e, if_true] at this ⊢
      omega
    · simp only [e, if_false] at this ⊢
      exact this
  under := by
    have := h.log l
    simp only [inc, if_true] at this
    simp only [Counts.dropLog, h.under, Bool.false_or, beq_eq_false_iff_ne]
    omega

/-- Only the page is changed. -/
theorem Exact.setDom {L : Locals} {m : Mem} (h : Exact L m) (d : Dom) :
    Exact L { m with st := { m.st with dom := d } } :=
  ⟨h.content, h.key, h.mgr, h.weak, h.log, h.under⟩

theorem Exact.dropContent (env : Env) {L : Locals} {m : Mem} {p : Nat} {c : Content}
    (h : Exact { L with content := inc L.content p } m) (hc : m.st.heap[p]? = some c) :
    Exact L (dropContent env p m) ∧
      (dropContent env p m).st =
        (if m.st.refs p + L.content p = 0 then { m.st with dom := unmount env c.id m.st.dom } else m.st) := by
  have hp := h.content p
  simp only [inc, if_true, owners_eq] at hp
  have hlt : p < m.st.heap.length := (List.getElem?_eq_some_iff.1 hc).1
  have hd : dec m.content p p = m.st.refs p + L.content p := by simp only [dec, if_true]; omega
  by_cases h0 : m.st.refs p + L.content p = 0
  · simp only [Counts.dropContent, hd, h0, if_true, hc]
    refine ⟨?_, rfl⟩
    have h1 : m.content p = 1 := by omega
    constructor
    · intro q
      have := h.content q
      simp only [Counts.dropWeak, Counts.dropKey, dec, inc] at this ⊢
      by_cases e : q = p
      · subst e; simp only [if_true] at this ⊢; rw [show owners { m.st with dom := unmount env c.id m.st.dom } q = owners m.st q from rfl]; omega
      · simp only [e, if_false] at this ⊢; exact this
    · intro q
      have := h.key q
      simp only [Counts.dropWeak, Counts.dropKey, dec] at this ⊢
      rw [show entries { m.st with dom := unmount env c.id m.st.dom } q = entries m.st q from rfl]
      by_cases e : q = p
      · subst e; simp only [h1, if_true] at this ⊢; simp at this ⊢; omega
      · simp only [e, if_false] at this ⊢; exact this
    · exact h.mgr
    · intro i
      have := h.weak i
      have hpt := howMany_point (f := living m.content m.st.heap i)
        (g := living (dec m.content p) m.st.heap i) (p := p) (fun q hq => by
          simp only [living, dec, hq, if_false]) m.st.heap.length hlt
      have hf : living m.content m.st.heap i p = decide (c.mgr = i) := by simp [living, h1, hc]
      have hg : living (dec m.content p) m.st.heap i p = false := by simp [living, dec, h1]
      rw [hf, hg] at hpt
      show dec m.weak c.mgr i = (if m.mgr i = 0 then 0 else 1) +
        howMany m.st.heap.length (living (dec m.content p) m.st.heap i) + L.weak i
      generalize howMany m.st.heap.length (living (dec m.content p) m.st.heap i) = x at *
      generalize howMany m.st.heap.length (living m.content m.st.heap i) = y at *
      simp only [dec]
      by_cases e : i = c.mgr
      · subst e; simp at hpt ⊢; simp only at this; omega
      · have e' : ¬ c.mgr = i := fun x => e x.symm
        simp [e, e'] at hpt ⊢; simp only at this; omega
    · exact h.log
    · have hk := h.key p
      have hw := h.weak c.mgr
      have hpt := howMany_point (f := living m.content m.st.heap c.mgr)
        (g := living (dec m.content p) m.st.heap c.mgr) (p := p) (fun q hq => by
          simp only [living, dec, hq, if_false]) m.st.heap.length hlt
      have hf : living m.content m.st.heap c.mgr p = true := by simp [living, h1, hc]
      have hg : living (dec m.content p) m.st.heap c.mgr p = false := by simp [living, dec, h1]
      rw [hf, hg] at hpt
      simp only [if_true, Bool.false_eq_true, if_false] at hpt
      rw [if_neg (by omega)] at hk
      simp only [Counts.dropWeak, Counts.dropKey, h.under, Bool.false_or, Bool.or_eq_false_iff, beq_eq_false_iff_ne]
      refine ⟨⟨?_, ?_⟩, ?_⟩ <;> omega
  · simp only [Counts.dropContent, hd, h0, if_false]
    refine ⟨?_, trivial⟩
    have hz : ∀ q, (dec m.content p q = 0) ↔ (m.content q = 0) := by
      intro q
      simp only [dec]
      by_cases e : q = p
      · subst e; simp only [if_true]; omega
      · simp only [e, if_false]
    have hl : ∀ i, living (dec m.content p) m.st.heap i = living m.content m.st.heap i := by
      intro i; funext q; simp only [living, ne_eq, hz]
    constructor
    · intro q
      have := h.content q
      simp only [dec, inc] at this ⊢
      by_cases e : q = p
      · subst e; simp only [if_true] at this ⊢; omega
      · simp only [e, if_false] at this ⊢; exact this
    · intro q; simp only [hz]; exact h.key q
    · exact h.mgr
    · intro i
      show _ = (if m.mgr i = 0 then 0 else 1) + howMany _ (living (dec m.content p) m.st.heap i) + _
      rw [hl i]; exact h.weak i
    · exact h.log
    · simp only [h.under, Bool.false_or, beq_eq_false_iff_ne]
      omega

theorem Exact.dropContent_release (env : Env) {L : Locals} {m : Mem} {p : Nat} {c : Content}
    (h : Exact { L with content := inc L.content p } m) (hc : m.st.heap[p]? = some c) (hL : L.content p = 0) :
    Exact L (Counts.dropContent env p m) ∧ (Counts.dropContent env p m).st = m.st.release env p := by
  obtain ⟨h1, h2⟩ := h.dropContent env hc
  refine ⟨h1, ?_⟩
  rw [h2, St.release, hc, hL, Nat.add_zero]

theorem dropContent_fields (env : Env) (p : Nat) (m : Mem) :
    (dropContent env p m).st.heap = m.st.heap ∧ (dropContent env p m).st.mgrs = m.st.mgrs ∧
      (dropContent env p m).st.logs = m.st.logs ∧ (dropContent env p m).st.mgrHandles = m.st.mgrHandles := by
  simp only [dropContent]
  split
  · split <;> exact ⟨rfl, rfl, rfl, rfl⟩
  · exact ⟨rfl, rfl, rfl, rfl⟩

theorem Exact.dropEntries (env : Env) {L : Locals} (hL : ∀ p, L.content p = 0) : ∀ (es : List (Key × Nat)) {m : Mem},
    Exact { L with
      content := fun p => L.content p + (es.map Prod.snd).count p
      key := fun p => L.key p + (es.map Prod.snd).count p } m →
    (es.map Prod.snd).Nodup → (∀ e ∈ es, e.2 < m.st.heap.length) →
    Exact L (dropEntries env es m) ∧ (dropEntries env es m).st = releaseAll env (es.map Prod.snd) m.st
  | [], m, h, _, _ => ⟨h, rfl⟩
  | e :: es, m, h, hn, hlt => by
    simp only [List.map_cons, List.nodup_cons] at hn
    have hc : (Counts.dropKey e.2 m).st.heap[e.2]? = some (m.st.heap[e.2]'(hlt e (by simp))) :=
      List.getElem?_eq_getElem (hlt e (by simp))
    have h1 : Exact { L with
        content := inc (fun p => L.content p + (es.map Prod.snd).count p) e.2
        key := inc (fun p => L.key p + (es.map Prod.snd).count p) e.2 } m := by
      have e1 : ∀ f : Nat → Nat, inc (fun p => f p + (es.map Prod.snd).count p) e.2 =
          fun p => f p + ((e :: es).map Prod.snd).count p := by
        intro f
        funext p
        simp only [inc, List.map_cons, List.count_cons]
        by_cases hp : p = e.2
        · subst hp; simp; omega
        · have : ¬ e.2 = p := fun x => hp x.symm
          simp [hp, this]
      rw [e1, e1]
      exact h
    obtain ⟨h2, h3⟩ := Exact.dropContent_release env (L := { L with
        content := fun p => L.content p + (es.map Prod.snd).count p
        key := fun p => L.key p + (es.map Prod.snd).count p }) (Exact.dropKey (L := { L with
        content := inc (fun p => L.content p + (es.map Prod.snd).count p) e.2
        key := fun p => L.key p + (es.map Prod.snd).count p }) h1) hc (by
          simp only [hL, Nat.zero_add]
          exact List.count_eq_zero.2 hn.1)
    obtain ⟨h4, h5⟩ := Exact.dropEntries env hL es h2 hn.2 (by
      intro x hx
      rw [(dropContent_fields env e.2 (Counts.dropKey e.2 m)).1]
      exact hlt x (List.mem_cons_of_mem _ hx))
    refine ⟨h4, ?_⟩
    simp only [Counts.dropEntries]
    rw [h5, h3]
    rfl

theorem releaseAll_fields (env : Env) : ∀ (ps : List Nat) (s : St),
    (releaseAll env ps s).heap = s.heap ∧ (releaseAll env ps s).mgrs = s.mgrs ∧
      (releaseAll env ps s).logs = s.logs ∧ (releaseAll env ps s).mgrHandles = s.mgrHandles
  | [], s => ⟨rfl, rfl, rfl, rfl⟩
  | p :: ps, s => by
    obtain ⟨a, b, c, d⟩ := releaseAll_fields env ps (s.release env p)
    obtain ⟨dm, -, e⟩ := release_eq env p s
    simp only [releaseAll]
    rw [a, b, c, d, e]
    exact ⟨rfl, rfl, rfl, rfl⟩

theorem entries_modReg {s : St} {i : Nat} {g : Mgr} (hg : s.mgrs[i]? = some g)
    (f : List (Key × Nat) → List (Key × Nat)) (p : Nat) :
    entries (s.modReg i f) p + (g.reg.map Prod.snd).count p =
      entries s p + ((f g.reg).map Prod.snd).count p := by
  simpa only [entries, St.modReg, St.modMgr] using
    sum_modify (fun g : Mgr => (g.reg.map Prod.snd).count p) (fun m : Mgr => { m with reg := f m.reg }) s.mgrs i g hg

theorem holding_modReg (mgr : Nat → Nat) (mgrs : List Mgr) (i : Nat) (f : List (Key × Nat) → List (Key × Nat)) (l : Nat) :
    holding mgr (mgrs.modify i (fun m => { m with reg := f m.reg })) l = holding mgr mgrs l := by
  funext j
  simp only [holding, List.getElem?_modify]
  cases mgrs[j]? with
  | none => rfl
  | some a => by_cases e : i = j <;> simp [e]

/-- A registry is changed and the references move from and to local variables. -/
theorem Exact.modReg {L L' : Locals} {m : Mem} (h : Exact L m) {i : Nat} {g : Mgr} (hg : m.st.mgrs[i]? = some g)
    (f : List (Key × Nat) → List (Key × Nat))
    (hc : ∀ p, L.content p + (g.reg.map Prod.snd).count p = L'.content p + ((f g.reg).map Prod.snd).count p)
    (hk : ∀ p, L.key p + (g.reg.map Prod.snd).count p = L'.key p + ((f g.reg).map Prod.snd).count p)
    (hm : L'.mgr = L.mgr) (hw : L'.weak = L.weak) (hl : L'.log = L.log) :
    Exact L' { m with st := m.st.modReg i f } where
  content := fun p => by
    have h1 := h.content p
    have h2 := entries_modReg hg f p
    have h3 := hc p
    show m.content p = (m.st.handles.count (some p) + entries (m.st.modReg i f) p) + L'.content p
    simp only [owners] at h1
    omega
  key := fun p => by
    have h1 := h.key p
    have h2 := entries_modReg hg f p
    have h3 := hk p
    show m.key p = (if m.content p = 0 then 0 else 1) + entries (m.st.modReg i f) p + L'.key p
    omega
  mgr := fun i => by rw [hm]; exact h.mgr i
  weak := fun i => by rw [hw]; exact h.weak i
  log := fun l => by
    rw [hl]
    show m.log l = ends m.st l + howMany (m.st.mgrs.modify i (fun m => { m with reg := f m.reg })).length
      (holding m.mgr (m.st.mgrs.modify i (fun m => { m with reg := f m.reg })) l) + L.log l
    rw [holding_modReg, List.length_modify]
    exact h.log l
  under := h.under

theorem Exact.dropManager_more (env : Env) {L : Locals} {m : Mem} {i : Nat}
    (h : Exact { L with mgr := inc L.mgr i } m) (h0 : clones m.st i + L.mgr i ≠ 0) :
    Exact L (dropManager env i m) ∧ (dropManager env i m).st = m.st := by
  have hi := h.mgr i
  simp only [inc, if_true] at hi
  have hd : dec m.mgr i i = clones m.st i + L.mgr i := by simp only [dec, if_true]; omega
  simp only [Counts.dropManager, hd, h0, if_false]
  refine ⟨?_, trivial⟩
  have hz : ∀ q, (dec m.mgr i q = 0) ↔ (m.mgr q = 0) := by
    intro q
    simp only [dec]
    by_cases e : q = i
    · subst e; simp only [if_true]; omega
    · simp only [e, if_false]
  constructor
  · exact h.content
  · exact h.key
  · intro q
    have := h.mgr q
    simp only [dec, inc] at this ⊢
    by_cases e : q = i
    · subst e; simp only [if_true] at this ⊢; omega
    · simp only [e, if_false] at this ⊢; exact this
  · intro q; simp only [hz]; exact h.weak q
  · intro l
    show _ = ends m.st l + howMany m.st.mgrs.length (holding (dec m.mgr i) m.st.mgrs l) + L.log l
    have : holding (dec m.mgr i) m.st.mgrs l = holding m.mgr m.st.mgrs l := by
      funext j; simp only [holding, ne_eq, hz]
    rw [this]
    exact h.log l
  · simp only [h.under, Bool.false_or, beq_eq_false_iff_ne]
    omega

theorem Exact.dropManager_last (env : Env) {L : Locals} {m : Mem} {i : Nat} {g : Mgr}
    (h : Exact { L with mgr := inc L.mgr i } m) (h0 : clones m.st i + L.mgr i = 0) (hg : m.st.mgrs[i]? = some g)
    (hL : ∀ p, L.content p = 0) (hn : (g.reg.map Prod.snd).Nodup) (hlt : ∀ e ∈ g.reg, e.2 < m.st.heap.length) :
    Exact L (dropManager env i m) ∧
      (dropManager env i m).st = releaseAll env (g.reg.map Prod.snd) (m.st.modReg i (fun _ => [])) := by
  have hi := h.mgr i
  simp only [inc, if_true] at hi
  have h1 : m.mgr i = 1 := by omega
  have hd : dec m.mgr i i = 0 := by simp only [dec, if_true]; omega
  simp only [Counts.dropManager, hd, if_true, hg]
  have hil : i < m.st.mgrs.length := (List.getElem?_eq_some_iff.1 hg).1
  -- The manager is gone; its weak reference and its log are local now.
  let K : Locals := { L with
    weak := inc L.weak i
    log := fun l => L.log l + if g.log = some l then 1 else 0 }
  have hA : Exact K { m with mgr := dec m.mgr i, under := m.under || m.mgr i == 0 } := by
    constructor
    · exact h.content
    · exact h.key
    · intro q
      have := h.mgr q
      simp only [dec, inc] at this ⊢
      by_cases e : q = i
      · subst e; simp only [if_true] at this ⊢; show _ = clones m.st q + L.mgr q; omega
      · simp only [e, if_false] at this ⊢; exact this
    · intro q
      have := h.weak q
      show _ = (if dec m.mgr i q = 0 then 0 else 1) + _ + inc L.weak i q
      by_cases e : q = i
      · subst e; simp only [dec, inc, if_true, h1] at this ⊢; simp at this ⊢; omega
      · simp only [dec, inc, e, if_false] at this ⊢; exact this
    · intro l
      have := h.log l
      show m.log l = ends m.st l + howMany m.st.mgrs.length (holding (dec m.mgr i) m.st.mgrs l) +
        (L.log l + if g.log = some l then 1 else 0)
      have hpt := howMany_point (f := holding m.mgr m.st.mgrs l)
        (g := holding (dec m.mgr i) m.st.mgrs l) (p := i) (fun q hq => by
          simp only [holding, dec, hq, if_false]) m.st.mgrs.length hil
      have hf : holding m.mgr m.st.mgrs l i = decide (g.log = some l) := by simp [holding, h1, hg]
      have hg' : holding (dec m.mgr i) m.st.mgrs l i = false := by simp [holding, dec, h1]
      rw [hf, hg'] at hpt
      simp only [decide_eq_true_eq, Bool.false_eq_true, if_false] at hpt
      simp only at this
      omega
    · simp only [h.under, Bool.false_or, beq_eq_false_iff_ne]
      omega
  have hB := hA.modReg (L' := { K with
      content := fun p => K.content p + (g.reg.map Prod.snd).count p
      key := fun p => K.key p + (g.reg.map Prod.snd).count p }) hg (fun _ => []) (fun p => by simp) (fun p => by simp)
      rfl rfl rfl
  obtain ⟨hC, hS⟩ := Exact.dropEntries env (L := K) hL g.reg hB hn (fun e he => hlt e he)
  refine ⟨?_, ?_⟩
  · refine Exact.dropWeak (L := L) ?_
    cases hlog : g.log with
    | none =>
      have : K = { L with weak := inc L.weak i } := by simp [K, hlog]
      rw [this] at hC
      exact hC
    | some l =>
      have : K = { L with weak := inc L.weak i, log := inc L.log l } := by
        simp only [K, hlog, Locals.mk.injEq, true_and]
        funext q
        simp only [inc, Option.some.injEq]
        by_cases e : q = l
        · subst e; simp
        · have : ¬ l = q := fun x => e x.symm
          simp [e, this]
      rw [this] at hC
      exact Exact.dropLog (L := { L with weak := inc L.weak i }) hC
  · cases g.log <;> exact hS

theorem reg_nodup {s : St} (hi : Inv s) {i : Nat} {g : Mgr} (hg : s.mgrs[i]? = some g) : (g.reg.map Prod.snd).Nodup := by
  have hk := hi.keys g (List.mem_of_getElem? hg)
  rw [List.Nodup, List.pairwise_map] at hk ⊢
  refine List.Pairwise.imp_of_mem ?_ hk
  intro a b ha hb hne e
  obtain ⟨c, h1, h2, -⟩ := hi.reg i g hg a ha
  obtain ⟨c', h1', h2', -⟩ := hi.reg i g hg b hb
  rw [e, h1'] at h1
  cases h1
  exact hne (h2.symm.trans h2')

/-! ## New references -/

theorem Exact.incMgr {L : Locals} {m : Mem} (h : Exact L m) {i : Nat} (hi : m.mgr i ≠ 0) :
    Exact { L with mgr := inc L.mgr i } { m with mgr := inc m.mgr i } := by
  have hz : ∀ q, (inc m.mgr i q = 0) ↔ (m.mgr q = 0) := by
    intro q
    simp only [inc]
    by_cases e : q = i
    · subst e; simp only [if_true]; omega
    · simp only [e, if_false]
  constructor
  · exact h.content
  · exact h.key
  · intro q
    have := h.mgr q
    simp only [inc] at this ⊢
    by_cases e : q = i
    · subst e; simp only [if_true] at this ⊢; omega
    · simp only [e, if_false] at this ⊢; exact this
  · intro q; simp only [hz]; exact h.weak q
  · intro l
    show _ = ends m.st l + howMany m.st.mgrs.length (holding (inc m.mgr i) m.st.mgrs l) + L.log l
    have : holding (inc m.mgr i) m.st.mgrs l = holding m.mgr m.st.mgrs l := by
      funext j; simp only [holding, ne_eq, hz]
    rw [this]
    exact h.log l
  · exact h.under

theorem Exact.incContent {L : Locals} {m : Mem} (h : Exact L m) {p : Nat} (hp : m.content p ≠ 0) :
    Exact { L with content := inc L.content p } { m with content := inc m.content p } := by
  have hz : ∀ q, (inc m.content p q = 0) ↔ (m.content q = 0) := by
    intro q
    simp only [inc]
    by_cases e : q = p
    · subst e; simp only [if_true]; omega
    · simp only [e, if_false]
  constructor
  · intro q
    have := h.content q
    simp only [inc] at this ⊢
    by_cases e : q = p
    · subst e; simp only [if_true] at this ⊢; omega
    · simp only [e, if_false] at this ⊢; exact this
  · intro q; simp only [hz]; exact h.key q
  · exact h.mgr
  · intro i
    show _ = (if m.mgr i = 0 then 0 else 1) + howMany _ (living (inc m.content p) m.st.heap i) + _
    have : living (inc m.content p) m.st.heap i = living m.content m.st.heap i := by
      funext q; simp only [living, ne_eq, hz]
    rw [this]
    exact h.weak i
  · exact h.log
  · exact h.under

theorem Exact.incKey {L : Locals} {m : Mem} (h : Exact L m) (p : Nat) :
    Exact { L with key := inc L.key p } { m with key := inc m.key p } := by
  refine ⟨h.content, fun q => ?_, h.mgr, h.weak, h.log, h.under⟩
  have := h.key q
  simp only [inc] at this ⊢
  by_cases e : q = p
  · subst e; simp only [if_true] at this ⊢; omega
  · simp only [e, if_false] at this ⊢; exact this

theorem Exact.incWeak {L : Locals} {m : Mem} (h : Exact L m) (i : Nat) :
    Exact { L with weak := inc L.weak i } { m with weak := inc m.weak i } := by
  refine ⟨h.content, h.key, h.mgr, fun q => ?_, h.log, h.under⟩
  have := h.weak q
  simp only [inc] at this ⊢
  by_cases e : q = i
  · subst e; simp only [if_true] at this ⊢; omega
  · simp only [e, if_false] at this ⊢; exact this

/-- A local reference becomes a `Style`. -/
theorem Exact.addHandle {L : Locals} {m : Mem} {p : Nat} (h : Exact { L with content := inc L.content p } m) :
    Exact L { m with st := { m.st with handles := m.st.handles ++ [some p] } } := by
  refine ⟨fun q => ?_, h.key, h.mgr, h.weak, h.log, h.under⟩
  have := h.content q
  have h2 := count_append_some m.st.handles p q
  show m.content q = ((m.st.handles ++ [some p]).count (some q) + entries m.st q) + L.content q
  simp only [inc, owners] at this
  by_cases e : q = p
  · subst e; simp only [if_true] at this h2; omega
  · simp only [e, if_false] at this h2; omega

/-- A `Style` becomes a local reference. -/
theorem Exact.takeHandle {L : Locals} {m : Mem} {k p : Nat} (h : Exact L m) (hk : m.st.contentOf k = some p) :
    Exact { L with content := inc L.content p } { m with st := { m.st with handles := m.st.handles.set k none } } := by
  refine ⟨fun q => ?_, h.key, h.mgr, h.weak, h.log, h.under⟩
  have := h.content q
  simp only [St.contentOf, Option.join_eq_some_iff] at hk
  have h2 := count_set_none hk q
  show m.content q = ((m.st.handles.set k none).count (some q) + entries m.st q) + inc L.content p q
  simp only [inc, owners] at this ⊢
  by_cases e : q = p
  · subst e; simp only [if_true] at h2 ⊢; omega
  · simp only [e, if_false] at h2 ⊢; omega

/-- A local reference becomes a `StyleManager` of the user. -/
theorem Exact.addMgrHandle {L : Locals} {m : Mem} {i : Nat} (h : Exact { L with mgr := inc L.mgr i } m) :
    Exact L { m with st := { m.st with mgrHandles := m.st.mgrHandles ++ [some i] } } := by
  refine ⟨h.content, h.key, fun q => ?_, h.weak, h.log, h.under⟩
  have := h.mgr q
  have h2 := count_append_some m.st.mgrHandles i q
  show m.mgr q = (m.st.mgrHandles ++ [some i]).count (some q) + L.mgr q
  simp only [inc, clones] at this
  by_cases e : q = i
  · subst e; simp only [if_true] at this h2; omega
  · simp only [e, if_false] at this h2; omega

/-- A `StyleManager` of the user becomes a local reference. -/
theorem Exact.takeMgrHandle {L : Locals} {m : Mem} {k i : Nat} (h : Exact L m) (hk : m.st.mgrOf k = some i) :
    Exact { L with mgr := inc L.mgr i } { m with st := { m.st with mgrHandles := m.st.mgrHandles.set k none } } := by
  refine ⟨h.content, h.key, fun q => ?_, h.weak, h.log, h.under⟩
  have := h.mgr q
  simp only [St.mgrOf, Option.join_eq_some_iff] at hk
  have h2 := count_set_none hk q
  show m.mgr q = (m.st.mgrHandles.set k none).count (some q) + inc L.mgr i q
  simp only [inc, clones] at this ⊢
  by_cases e : q = i
  · subst e; simp only [if_true] at h2 ⊢; omega
  · simp only [e, if_false] at h2 ⊢; omega

/-- A new style takes a local weak reference. -/
theorem Exact.newContent {L : Locals} {m : Mem} {c : Content}
    (h : Exact { L with weak := inc L.weak c.mgr } m) (hi : Inv m.st)
    (hL : L.content m.st.heap.length = 0) (hK : L.key m.st.heap.length = 0) :
    Exact { L with content := inc L.content m.st.heap.length }
      { m with
        st := { m.st with heap := m.st.heap ++ [c] }
        content := new m.content m.st.heap.length 1
        key := new m.key m.st.heap.length 1 } := by
  have hr := refs_fresh hi
  have he : entries m.st m.st.heap.length = 0 := by
    have : owners m.st m.st.heap.length = 0 := hr
    simp only [owners] at this
    omega
  constructor
  · intro q
    have := h.content q
    simp only [new, inc] at this ⊢
    by_cases e : q = m.st.heap.length
    · subst e
      simp only [if_true]
      show 1 = m.st.refs m.st.heap.length + _
      omega
    · simp only [e, if_false] at this ⊢; exact this
  · intro q
    have := h.key q
    simp only [new] at this ⊢
    by_cases e : q = m.st.heap.length
    · subst e
      simp only [if_true]
      show 1 = _ + entries m.st m.st.heap.length + _
      rw [he, hK]; rfl
    · simp only [e, if_false] at this ⊢; exact this
  · exact h.mgr
  · intro i
    have := h.weak i
    show m.weak i = (if m.mgr i = 0 then 0 else 1) + howMany (m.st.heap ++ [c]).length
      (living (new m.content m.st.heap.length 1) (m.st.heap ++ [c]) i) + L.weak i
    simp only [List.length_append, List.length_cons, List.length_nil]
    rw [howMany_succ, howMany_congr (g := living m.content m.st.heap i) m.st.heap.length (by
      intro q hq
      have hne : q ≠ m.st.heap.length := by omega
      simp only [living, new, hne, if_false, List.getElem?_append_left hq])]
    have hlast : living (new m.content m.st.heap.length 1) (m.st.heap ++ [c]) i m.st.heap.length =
        decide (c.mgr = i) := by simp [living, new]
    rw [hlast]
    simp only [inc] at this
    by_cases e : i = c.mgr
    · subst e; simp at this ⊢; omega
    · have e' : ¬ c.mgr = i := fun x => e x.symm
      simp [e, e'] at this ⊢; omega
  · exact h.log
  · exact h.under

/-- Only the contents of a log are changed. -/
theorem Exact.setLogs {L L' : Locals} {m : Mem} (h : Exact L m) (logs : List Log)
    (hl : ∀ l, ends m.st l + L.log l = ends { m.st with logs := logs } l + L'.log l)
    (hc : L'.content = L.content) (hk : L'.key = L.key) (hm : L'.mgr = L.mgr) (hw : L'.weak = L.weak) :
    Exact L' { m with st := { m.st with logs := logs } } := by
  refine ⟨fun q => ?_, fun q => ?_, fun q => ?_, fun q => ?_, fun l => ?_, h.under⟩
  · rw [hc]; exact h.content q
  · rw [hk]; exact h.key q
  · rw [hm]; exact h.mgr q
  · rw [hw]; exact h.weak q
  · have := h.log l
    have := hl l
    show m.log l = ends { m.st with logs := logs } l + howMany m.st.mgrs.length (holding m.mgr m.st.mgrs l) + L'.log l
    omega

/-- A local reference to a style and one to its key go into a registry. -/
theorem Exact.register {L : Locals} {m : Mem} (h : Exact L m) {i : Nat} {g : Mgr} (hg : m.st.mgrs[i]? = some g)
    {k : Key} {p : Nat} (hk : regGet g.reg k = none) (hp : m.content p ≠ 0) :
    Exact L (register i k p m) ∧
      (register i k p m).st = m.st.modReg i (fun reg => reg ++ [(k, p)]) := by
  have hst : (Counts.register i k p m).st = m.st.modReg i (fun reg => reg ++ [(k, p)]) := by
    simp only [Counts.register, St.modReg, St.modMgr]
    congr 1
    exact modify_congr (fun a ha => by
      rw [hg] at ha
      cases ha
      rw [regInsert_absent hk])
  refine ⟨?_, hst⟩
  have h1 := (((h.incContent hp).incKey p).modReg (L' := L) hg (fun reg => reg ++ [(k, p)]) (fun q => by
      simp only [inc, List.map_append, List.count_append, List.map_cons, List.map_nil]
      by_cases e : q = p
      · subst e; simp; omega
      · have : ¬ p = q := fun x => e x.symm
        simp [e, this, List.count_cons]) (fun q => by
      simp only [inc, List.map_append, List.count_append, List.map_cons, List.map_nil]
      by_cases e : q = p
      · subst e; simp; omega
      · have : ¬ p = q := fun x => e x.symm
        simp [e, this, List.count_cons]) rfl rfl rfl)
  have : Counts.register i k p m =
      { m with content := inc m.content p, key := inc m.key p, st := m.st.modReg i (fun reg => reg ++ [(k, p)]) } := by
    rw [← hst]; rfl
  rw [this]
  exact h1

/-! ## The functions -/

/-- What `getOrRegister` leaves to the caller. -/
def leaves (L : Locals) : Res Nat → Locals
  | .ok p => { L with content := inc L.content p }
  | _ => L

theorem Exact.content_pos {L : Locals} {m : Mem} (h : Exact L m) {g : Mgr} {i : Nat} (hg : m.st.mgrs[i]? = some g)
    {k : Key} {p : Nat} (hp : regGet g.reg k = some p) : m.content p ≠ 0 := by
  rw [h.content p, owners_eq]
  have : m.st.refs p ≠ 0 := by
    rw [Ne, refs_eq_zero]
    intro hx
    exact hx.2 g (List.mem_of_getElem? hg) (List.mem_map.2 ⟨(k, p), regGet_mem hp, rfl⟩)
  omega

theorem getOrRegister_exact (env : Env) {L : Locals} {m : Mem} (h : Exact L m) (hi : Inv m.st) {i : Nat} {g : Mgr}
    (hg : m.st.mgrs[i]? = some g) (hL : ∀ p, L.content p = 0) (hK : ∀ p, L.key p = 0) (fault : Bool) (key : Key) :
    (getOrRegister env fault i g key m).1.st = (Manager.getOrRegister env fault i key m.st).1 ∧
    (getOrRegister env fault i g key m).2 = (Manager.getOrRegister env fault i key m.st).2 ∧
    Exact (leaves L (getOrRegister env fault i g key m).2) (getOrRegister env fault i g key m).1 := by
  have hw := h.incWeak i
  rcases getOrRegister_eq env hi hg fault key with ⟨p, hp, he⟩ | ⟨hn, hrest⟩
  · rw [he]
    simp only [getOrRegister, hp]
    refine ⟨by first | rfl | trivial, by first | rfl | trivial, ?_⟩
    exact Exact.dropWeak (L := { L with content := inc L.content p }) (hw.incContent (h.content_pos hg hp))
  · rcases hrest with ⟨hd, hparse, he⟩ | ⟨hd, hrest⟩
    · rw [he]
      have hb : (env.debugParser && (Css.parse (newContent env m.st i key).text).isNone) = true := by
        simp [hd, hparse]
      simp only [newContent] at hb
      simp only [getOrRegister, hn, hb, if_true]
      exact ⟨by first | rfl | trivial, by first | rfl | trivial, Exact.dropWeak (L := L) ⟨hw.content, hw.key, hw.mgr, hw.weak, hw.log, hw.under⟩⟩
    · have hb : (env.debugParser && (Css.parse (newContent env m.st i key).text).isNone) = false := by
        cases hdb : env.debugParser with
        | false => rfl
        | true =>
          have := hd hdb
          simp only [Bool.true_and]
          cases hpr : Css.parse (newContent env m.st i key).text with
          | none => exact absurd hpr this
          | some _ => rfl
      have hctr : Exact { L with weak := inc L.weak (newContent env m.st i key).mgr }
          { m with weak := inc m.weak i, st := { m.st with ctr := m.st.ctr + 1 } } :=
        ⟨hw.content, hw.key, hw.mgr, hw.weak, hw.log, hw.under⟩
      have hnew := hctr.newContent (hi.setCtr _) (hL _) (hK _)
      have hgn : (m.st.heap ++ [newContent env m.st i key])[m.st.heap.length]? = some (newContent env m.st i key) := by
        simp
      have hpos : new m.content m.st.heap.length 1 m.st.heap.length ≠ 0 := by simp [new]
      rcases hrest with ⟨l, log, hl, hlog, he⟩ | ⟨hl, hmt, he⟩ | ⟨d, hl, hmt, he⟩
      · rw [he]
        simp only [newContent] at hb
        simp only [getOrRegister, hn, hb, if_false, hl, hlog, Bool.false_eq_true]
        have hset := hnew.setLogs (L' := { L with content := inc L.content m.st.heap.length })
          (m.st.logs.set l { log with entries := log.entries ++
            [{ key := key, id := (newContent env m.st i key).id, text := (newContent env m.st i key).text }] })
          (fun q => by
            have : ends { m.st with ctr := m.st.ctr + 1, heap := m.st.heap ++ [newContent env m.st i key] } q =
                ends { m.st with
                  ctr := m.st.ctr + 1
                  heap := m.st.heap ++ [newContent env m.st i key]
                  logs := m.st.logs.set l { log with entries := log.entries ++
                    [{ key := key, id := (newContent env m.st i key).id, text := (newContent env m.st i key).text }] } } q := by
              simp only [ends, List.getElem?_set]
              by_cases e : l = q
              · subst e
                have hlt := (List.getElem?_eq_some_iff.1 hlog).1
                simp only [hlt, hlog, if_true]
              · simp [e]
            simp only
            rw [← this]) rfl rfl rfl rfl
        obtain ⟨h1, h2⟩ := hset.register (i := i) (g := g) hg (k := key) (p := m.st.heap.length) hn hpos
        exact ⟨h2, trivial, h1⟩
      · rw [he]
        simp only [newContent] at hb hmt
        simp only [getOrRegister, hn, hb, if_false, hl, hmt, Bool.false_eq_true]
        obtain ⟨h1, h2⟩ := Exact.dropContent env (L := L) hnew hgn
        refine ⟨?_, trivial, h1⟩
        refine h2.trans ?_
        rw [if_pos]
        have := refs_fresh hi
        rw [hL]
        exact this
      · rw [he]
        simp only [newContent] at hb hmt
        simp only [getOrRegister, hn, hb, if_false, hl, hmt, Bool.false_eq_true]
        obtain ⟨h1, h2⟩ := (hnew.setDom d).register (i := i) (g := g) hg (k := key) (p := m.st.heap.length) hn hpos
        exact ⟨h2, trivial, h1⟩

/-- The result of loading. -/
def loadOut : Res Unit → Out
  | .ok _ => .unit
  | .err e => .err e
  | .panic => .panic

theorem loadBody_exact {i : Nat} {es : List Entry} {s s' : St} {r : Res Unit} (hr : LoadRun i es s s' r) :
    ∀ {m : Mem}, m.st = s → Exact Locals.none m → Inv s → some i ∈ s.mgrHandles →
      (loadBody i es m).1.st = s' ∧ Exact Locals.none (loadBody i es m).1 ∧
        (loadBody i es m).2 = loadOut r := by
  induction hr with
  | nil s => intro m hs h hi ha; exact ⟨hs, h, rfl⟩
  | same e es s s' r g p c hg hp hc hid _ ih =>
    intro m hs h hi ha
    simp only [loadBody, hs, hg, hp, hc, hid, if_true]
    exact ih hs h hi ha
  | conflict e es s g p c hg hp hc hid =>
    intro m hs h hi ha
    simp only [loadBody, hs, hg, hp, hc, hid, if_false]
    exact ⟨by first | exact hs | trivial, h, by first | rfl | trivial⟩
  | fresh e es s s' r g hg hn _ ih =>
    intro m hs h hi ha
    subst hs
    have hnew := Exact.newContent (L := Locals.none) (c := loadedContent i e) (h.incWeak i) hi rfl rfl
    have hkey := hnew.incKey m.st.heap.length
    have hreg := hkey.modReg (L' := Locals.none) (i := i) (g := g) hg (fun reg => reg ++ [(e.key, m.st.heap.length)])
      (fun q => by
        simp only [inc, Locals.none, List.map_append, List.count_append, List.map_cons, List.map_nil]
        by_cases e : q = m.st.heap.length
        · subst e; simp; omega
        · have : ¬ m.st.heap.length = q := fun x => e x.symm
          simp [e, this])
      (fun q => by
        simp only [inc, Locals.none, List.map_append, List.count_append, List.map_cons, List.map_nil]
        by_cases e : q = m.st.heap.length
        · subst e; simp; omega
        · have : ¬ m.st.heap.length = q := fun x => e x.symm
          simp [e, this]) rfl rfl rfl
    have hk2 : inc (new m.key m.st.heap.length 1) m.st.heap.length = new m.key m.st.heap.length 2 := by
      funext q
      simp only [inc, new]
      by_cases e : q = m.st.heap.length <;> simp [e]
    have hst : ({ m.st with heap := m.st.heap ++ [loadedContent i e] } : St).modMgr i
        (fun g => { g with reg := regInsert g.reg e.key m.st.heap.length }) =
        ({ m.st with heap := m.st.heap ++ [loadedContent i e] } : St).modReg i
          (fun reg => reg ++ [(e.key, m.st.heap.length)]) := by
      simp only [St.modReg, St.modMgr]
      congr 1
      exact modify_congr (fun a ha => by
        rw [hg] at ha
        cases ha
        rw [regInsert_absent hn])
    simp only at hreg
    rw [hk2] at hreg
    simp only [loadBody, hg, hn]
    rw [show ({ id := e.id, key := e.key, text := e.key.ast.toStyleStr (some e.id), mgr := i, origin := .hydrated } :
      Content) = loadedContent i e from rfl, hst]
    exact ih rfl hreg (hi.addEntry hg ha rfl rfl hn) ha

theorem ends_take {s : St} {writer : Option Nat} (h : s.writerFree writer = true) (l : Nat) :
    ends s l = ends { s with logs := s.takeWriter writer } l + (if writer = some l then 1 else 0) := by
  cases writer with
  | none => simp [St.takeWriter]
  | some w =>
    simp only [St.writerFree, Option.any_eq_true] at h
    obtain ⟨log, h1, h2⟩ := h
    simp only [ends, St.takeWriter, List.getElem?_modify]
    by_cases e : w = l
    · subst e
      simp only [h1]
      have : log.writerTaken = false := by simpa using h2
      simp [this]
      omega
    · simp only [e, if_false, Option.some.injEq, Option.map_eq_map, Option.map_id']
      simp

theorem newMgr_exact (env : Env) {m : Mem} (h : Exact Locals.none m) (hi : Inv m.st) (pref : Str)
    (container : Option Nat) (append : Bool) (writer : Option Nat) :
    (step env (.newMgr pref container append writer) m).1.st =
      (Manager.step env (.newMgr pref container append writer) m.st).1 ∧
    Exact Locals.none (step env (.newMgr pref container append writer) m).1 := by
  simp only [step, Manager.step]
  by_cases hok : (m.st.writerFree writer && container.all (fun i => decide (i < m.st.dom.length))) = true
  · simp only [newMgr, hok, if_true]
    generalize (if env.wasm = true then
      container.or (env.head.filter (fun i => decide (i < m.st.dom.length))) else container) = cont
    simp only [Bool.and_eq_true] at hok
    have hends := fun l => ends_take hok.1 l
    by_cases he : (env.wasm && cont.isNone) = true
    · simp only [he, if_true]
      have hset := h.setLogs (L' := { Locals.none with log := fun l => if writer = some l then 1 else 0 })
        (m.st.takeWriter writer) (fun l => hends l) rfl rfl rfl rfl
      cases writer with
      | none =>
        refine ⟨rfl, ?_⟩
        have : (fun l => if (none : Option Nat) = some l then 1 else 0) = fun _ : Nat => 0 := by funext l; simp
        rw [this] at hset
        exact hset
      | some w =>
        refine ⟨rfl, ?_⟩
        have : (fun l => if some w = some l then 1 else 0) = inc Locals.none.log w := by
          funext l
          simp only [inc, Locals.none, Option.some.injEq]
          by_cases e : l = w
          · subst e; simp
          · have : ¬ w = l := fun x => e x.symm
            simp [e, this]
        rw [this] at hset
        exact Exact.dropLog (L := Locals.none) hset
    · simp only [he]
      refine ⟨rfl, ?_⟩
      have hfresh : clones m.st m.st.mgrs.length = 0 :=
        List.count_eq_zero.2 (fun hx => Nat.lt_irrefl _ (hi.mgrHandle _ hx))
      constructor
      · intro p
        show m.content p = (m.st.handles.count (some p) + entries { m.st with mgrs := m.st.mgrs ++ [_] } p) + 0
        simp only [entries, List.map_append, List.sum_append, List.map_cons, List.map_nil]
        have := h.content p
        simp only [owners, entries, Locals.none] at this
        simpa using this
      · intro p
        show m.key p = (if m.content p = 0 then 0 else 1) + entries { m.st with mgrs := m.st.mgrs ++ [_] } p + 0
        simp only [entries, List.map_append, List.sum_append, List.map_cons, List.map_nil]
        have := h.key p
        simp only [entries, Locals.none] at this
        simpa using this
      · intro i
        show new m.mgr m.st.mgrs.length 1 i = (m.st.mgrHandles ++ [some m.st.mgrs.length]).count (some i) + 0
        rw [count_append_some]
        have := h.mgr i
        simp only [clones, Locals.none] at this hfresh
        simp only [new]
        by_cases e : i = m.st.mgrs.length
        · subst e; simp only [if_true]; omega
        · simp only [e, if_false]; omega
      · intro i
        show new m.weak m.st.mgrs.length 1 i = (if new m.mgr m.st.mgrs.length 1 i = 0 then 0 else 1) +
          howMany m.st.heap.length (living m.content m.st.heap i) + 0
        have := h.weak i
        simp only [Locals.none] at this
        simp only [new]
        by_cases e : i = m.st.mgrs.length
        · subst e
          have hz : howMany m.st.heap.length (living m.content m.st.heap m.st.mgrs.length) = 0 := by
            rw [howMany_congr (g := fun _ => false)]
            · simp [howMany]
            · intro q hq
              have := hi.contentMgr m.st.heap[q] (List.getElem_mem hq)
              have hne : m.st.heap[q].mgr ≠ m.st.mgrs.length := by omega
              simp [living, List.getElem?_eq_getElem hq, hne]
          simp [hz]
        · simp only [e, if_false]; omega
      · intro l
        have := h.log l
        have hel := hends l
        simp only [Locals.none] at this
        show m.log l = ends { m.st with logs := m.st.takeWriter writer } l +
          howMany (m.st.mgrs ++ [({ pref, container := cont, append, log := writer, reg := [], borrowed := false } : Mgr)]).length
            (holding (new m.mgr m.st.mgrs.length 1)
              (m.st.mgrs ++ [({ pref, container := cont, append, log := writer, reg := [], borrowed := false } : Mgr)]) l) + 0
        simp only [List.length_append, List.length_cons, List.length_nil]
        rw [howMany_succ, howMany_congr (g := holding m.mgr m.st.mgrs l) m.st.mgrs.length (by
          intro q hq
          have hne : q ≠ m.st.mgrs.length := by omega
          simp only [holding, new, hne, if_false, List.getElem?_append_left hq])]
        have hlast : holding (new m.mgr m.st.mgrs.length 1)
            (m.st.mgrs ++ [({ pref, container := cont, append, log := writer, reg := [], borrowed := false } : Mgr)]) l
              m.st.mgrs.length = decide (writer = some l) := by simp [holding, new]
        rw [hlast]
        simp only [decide_eq_true_eq]
        omega
      · exact h.under
  · simp only [newMgr, hok]
    exact ⟨rfl, h⟩

theorem Exact.none_content {m : Mem} (h : Exact Locals.none m) (p : Nat) : m.content p = m.st.refs p := h.content p

theorem Exact.none_mgr {m : Mem} (h : Exact Locals.none m) (i : Nat) : m.mgr i = m.st.mgrHandles.count (some i) :=
  h.mgr i

theorem mgrAlive_iff (s : St) (i : Nat) : s.mgrAlive i = true ↔ s.mgrHandles.count (some i) ≠ 0 := by
  simp only [St.mgrAlive, List.elem_eq_mem, decide_eq_true_eq, Ne, List.count_eq_zero, Classical.not_not]

theorem count_regRemove {k : Key} {q : Nat} (x : Nat) : ∀ (reg : List (Key × Nat)), (reg.map Prod.fst).Nodup →
    regGet reg k = some q →
    (reg.map Prod.snd).count x = inc (fun _ => 0) q x + ((regRemove reg k).map Prod.snd).count x
  | [], _, h => by simp [regGet] at h
  | e :: reg, hn, h => by
    simp only [List.map_cons, List.nodup_cons] at hn
    by_cases he : e.1 = k
    · have hq : e.2 = q := by simpa [regGet, he] using h
      have hrm : regRemove (e :: reg) k = reg := by
        have : regRemove (e :: reg) k = regRemove reg k := by simp [regRemove, he]
        rw [this]
        refine regRemove_absent (regGet_eq_none.2 ?_)
        rw [← he]
        exact hn.1
      rw [hrm]
      simp only [List.map_cons, List.count_cons, inc, hq]
      by_cases hx : x = q
      · subst hx; simp; omega
      · have : ¬ q = x := fun y => hx y.symm
        simp [hx, this]
    · have hrm : regRemove (e :: reg) k = e :: regRemove reg k := by simp [regRemove, he]
      have hg : regGet reg k = some q := by simpa [regGet, he] using h
      have := count_regRemove x reg hn.2 hg
      rw [hrm]
      simp only [List.map_cons, List.count_cons]
      omega

theorem step_exact (env : Env) {m : Mem} (h : Exact Locals.none m) (hi : Inv m.st) (op : Op) :
    (step env op m).1.st = (Manager.step env op m.st).1 ∧ (step env op m).2 = (Manager.step env op m.st).2 ∧
      Exact Locals.none (step env op m).1 := by
  cases op with
  | renderStatic =>
    refine ⟨rfl, rfl, h.content, h.key, h.mgr, h.weak, fun l => ?_, h.under⟩
    have := h.log l
    show new m.log m.st.logs.length 2 l = ends { m.st with logs := m.st.logs ++ [_] } l +
      howMany m.st.mgrs.length (holding m.mgr m.st.mgrs l) + 0
    simp only [Locals.none] at this
    by_cases e : l = m.st.logs.length
    · subst e
      have hz : howMany m.st.mgrs.length (holding m.mgr m.st.mgrs m.st.logs.length) = 0 := by
        rw [howMany_congr (g := fun _ => false)]
        · simp [howMany]
        · intro q hq
          have hne : m.st.mgrs[q].log ≠ some m.st.logs.length := by
            intro hx
            obtain ⟨log, h1, -⟩ := hi.log _ (List.getElem_mem hq) _ hx
            have := (List.getElem?_eq_some_iff.1 h1).1
            omega
          simp [holding, List.getElem?_eq_getElem hq, hne]
      rw [hz]
      simp [new, ends]
    · simp only [new, e, if_false]
      rw [this]
      simp only [ends]
      by_cases hlt : l < m.st.logs.length
      · rw [List.getElem?_append_left hlt]
      · have h1 : m.st.logs[l]? = none := List.getElem?_eq_none (by omega)
        have h2 : (m.st.logs ++ [{ entries := [], poisoned := false, writerTaken := false, readerTaken := false }])[l]? =
            none := List.getElem?_eq_none (by simp; omega)
        rw [h1, h2]
  | newMgr pref container append writer =>
    obtain ⟨h1, h2⟩ := newMgr_exact env h hi pref container append writer
    refine ⟨h1, ?_, h2⟩
    simp only [step, Manager.step]
    split <;> rfl
  | cloneMgr mh =>
    simp only [step, Manager.step]
    cases hm : m.st.mgrOf mh with
    | none => exact ⟨rfl, rfl, h⟩
    | some i =>
      refine ⟨rfl, rfl, ?_⟩
      refine Exact.addMgrHandle (L := Locals.none) (h.incMgr ?_)
      rw [h.none_mgr]
      exact fun h0 => List.count_eq_zero.1 h0 (mgrOf_mem hm)
  | dropMgr mh =>
    simp only [step, Manager.step]
    cases hm : m.st.mgrOf mh with
    | none => exact ⟨rfl, rfl, h⟩
    | some i =>
      obtain ⟨g, hg⟩ := mgrOf_get hi hm
      have ht := h.takeMgrHandle hm
      simp only
      by_cases ha : ({ m.st with mgrHandles := m.st.mgrHandles.set mh none } : St).mgrAlive i = true
      · rw [if_pos ha]
        obtain ⟨h1, h2⟩ := Exact.dropManager_more env (L := Locals.none) ht (by
          rw [mgrAlive_iff] at ha
          simpa [clones, Locals.none] using ha)
        exact ⟨h2, rfl, h1⟩
      · rw [if_neg ha]
        simp only [hg]
        obtain ⟨h1, h2⟩ := Exact.dropManager_last env (L := Locals.none) ht (by
          rw [mgrAlive_iff, Classical.not_not] at ha
          simpa [clones, Locals.none] using ha) hg (fun _ => rfl) (reg_nodup hi hg)
          (fun e he => hi.reg_lt (List.mem_of_getElem? hg) he)
        exact ⟨h2, trivial, h1⟩
  | create mh kind src fault =>
    simp only [step, Manager.step, create, Manager.create]
    cases hm : m.st.mgrOf mh with
    | none => exact ⟨rfl, rfl, h⟩
    | some i =>
      obtain ⟨g, hg⟩ := mgrOf_get hi hm
      simp only [hg]
      cases hs : src.sheet? with
      | none => exact ⟨rfl, rfl, h⟩
      | some ast =>
        simp only
        have h0 := h.incMgr (i := i) (by
          rw [h.none_mgr]
          exact fun h0 => List.count_eq_zero.1 h0 (mgrOf_mem hm))
        obtain ⟨h1, h2, h3⟩ := getOrRegister_exact env h0 hi hg (fun _ => rfl) (fun _ => rfl) fault (kind.key g.pref ast)
        have hmh : (Manager.getOrRegister env fault i (kind.key g.pref ast) m.st).1.mgrHandles = m.st.mgrHandles := by
          rcases getOrRegister_eq env hi hg fault (kind.key g.pref ast) with
            ⟨p, -, e⟩ | ⟨-, ⟨-, -, e⟩ | ⟨-, ⟨l, log, -, -, e⟩ | ⟨-, -, e⟩ | ⟨d, -, -, e⟩⟩⟩ <;> rw [e] <;> rfl
        have hmore := Exact.dropManager_more env (i := i)
          (L := leaves Locals.none (getOrRegister env fault i g (kind.key g.pref ast) { m with mgr := inc m.mgr i }).2)
          (m := (getOrRegister env fault i g (kind.key g.pref ast) { m with mgr := inc m.mgr i }).1) (by
            have : { leaves Locals.none (getOrRegister env fault i g (kind.key g.pref ast) { m with mgr := inc m.mgr i }).2 with
                mgr := inc (leaves Locals.none
                  (getOrRegister env fault i g (kind.key g.pref ast) { m with mgr := inc m.mgr i }).2).mgr i } =
                leaves { Locals.none with mgr := inc Locals.none.mgr i }
                  (getOrRegister env fault i g (kind.key g.pref ast) { m with mgr := inc m.mgr i }).2 := by
              cases (getOrRegister env fault i g (kind.key g.pref ast) { m with mgr := inc m.mgr i }).2 <;> rfl
            rw [this]
            exact h3) (by
            rw [clones, h1, hmh]
            have : m.st.mgrHandles.count (some i) ≠ 0 := fun h0 => List.count_eq_zero.1 h0 (mgrOf_mem hm)
            omega)
        obtain ⟨h4, h5⟩ := hmore
        rw [h1] at h5
        simp only [withManager]
        generalize hr : getOrRegister env fault i g (kind.key g.pref ast) { m with mgr := inc m.mgr i } = r at *
        generalize hb : Manager.getOrRegister env fault i (kind.key g.pref ast) m.st = b at *
        obtain ⟨m', o⟩ := r
        obtain ⟨s', o'⟩ := b
        simp only at h1 h2 h3 h4 h5 hmh
        subst h2
        cases o with
        | ok p =>
          simp only
          refine ⟨?_, ?_, Exact.addHandle (L := Locals.none) h4⟩
          · rw [h5]
          · rw [h5]
        | err e => exact ⟨h5, rfl, h4⟩
        | panic => exact ⟨h5, rfl, h4⟩
  | clone k =>
    simp only [step, Manager.step]
    cases hp : m.st.contentOf k with
    | none => exact ⟨rfl, rfl, h⟩
    | some p =>
      refine ⟨rfl, rfl, ?_⟩
      refine Exact.addHandle (L := Locals.none) (h.incContent ?_)
      rw [h.none_content, Ne, refs_eq_zero]
      exact fun hx => hx.1 (contentOf_mem hp)
  | drop k =>
    simp only [step, Manager.step]
    cases hp : m.st.contentOf k with
    | none => exact ⟨rfl, rfl, h⟩
    | some p =>
      have hlt := hi.handle p (contentOf_mem hp)
      obtain ⟨h1, h2⟩ := Exact.dropContent_release env (L := Locals.none) (h.takeHandle hp)
        (List.getElem?_eq_getElem hlt) rfl
      exact ⟨h2, rfl, h1⟩
  | unregister k =>
    simp only [step, Manager.step]
    cases hp : m.st.contentOf k with
    | none => exact ⟨rfl, rfl, h⟩
    | some p =>
      have hlt := hi.handle p (contentOf_mem hp)
      have hc : m.st.heap[p]? = some m.st.heap[p] := List.getElem?_eq_getElem hlt
      simp only [hc]
      generalize m.st.heap[p] = c at *
      have hal : m.mgr c.mgr ≠ 0 ↔ m.st.mgrAlive c.mgr = true := by rw [mgrAlive_iff, h.none_mgr]
      by_cases ha : m.st.mgrAlive c.mgr = true
      · rw [if_pos ha, if_pos (hal.2 ha)]
        have hmem : some c.mgr ∈ m.st.mgrHandles := by simpa [St.mgrAlive] using ha
        obtain ⟨g, hg⟩ : ∃ g, m.st.mgrs[c.mgr]? = some g :=
          ⟨_, List.getElem?_eq_getElem (hi.mgrHandle _ hmem)⟩
        have h0 := h.incMgr (hal.2 ha)
        have hget : (m.st.modMgr c.mgr (fun m => { m with borrowed := true })).mgrs[c.mgr]? =
            some { g with borrowed := true } := by
          simp [St.modMgr, hg]
        simp only [withManager, unregisterStyle, hg, Option.bind_some]
        rw [Manager.unregisterStyle, withBorrow_eq hi hg]
        simp only [hget]
        cases hq : regGet g.reg c.key with
        | none =>
          have : (((m.st.modMgr c.mgr (fun m => { m with borrowed := true })).modMgr c.mgr
              (fun m => { m with reg := regRemove m.reg c.key })).modMgr c.mgr
              (fun m => { m with borrowed := false })) = m.st := by
            refine Eq.trans (unborrow_reg hi c.mgr (fun reg => regRemove reg c.key)) ?_
            simp only [St.modReg, St.modMgr]
            rw [modify_self]
            intro a ha
            rw [hg] at ha
            cases ha
            rw [regRemove_absent hq]
          simp only [this]
          obtain ⟨h1, h2⟩ := Exact.dropManager_more env (L := Locals.none) h0 (by
            have := (mgrAlive_iff _ _).1 ha
            simpa [clones, Locals.none] using this)
          exact ⟨h2, trivial, h1⟩
        | some q =>
          have : ((((m.st.modMgr c.mgr (fun m => { m with borrowed := true })).modMgr c.mgr
              (fun m => { m with reg := regRemove m.reg c.key })).release env q).modMgr c.mgr
              (fun m => { m with borrowed := false })) =
                (m.st.modReg c.mgr (fun reg => regRemove reg c.key)).release env q := by
            rw [← release_modMgr _ _ _ _ (by intro m; rfl)]
            exact congrArg (St.release env q) (unborrow_reg hi c.mgr (fun reg => regRemove reg c.key))
          simp only [this]
          have hmemq := regGet_mem hq
          have hltq := hi.reg_lt (List.mem_of_getElem? hg) hmemq
          have hcount : ∀ x, (g.reg.map Prod.snd).count x =
              inc (fun _ => 0) q x + ((regRemove g.reg c.key).map Prod.snd).count x := by
            intro x
            exact count_regRemove x g.reg (hi.keys g (List.mem_of_getElem? hg)) hq
          have hrm := h0.modReg (L' := { Locals.none with
              content := inc Locals.none.content q
              key := inc Locals.none.key q
              mgr := inc Locals.none.mgr c.mgr }) hg (fun reg => regRemove reg c.key)
              (fun x => by simpa [Locals.none] using hcount x) (fun x => by simpa [Locals.none] using hcount x) rfl rfl rfl
          have hdk := Exact.dropKey (L := { Locals.none with
              content := inc Locals.none.content q
              mgr := inc Locals.none.mgr c.mgr }) hrm
          obtain ⟨h1, h2⟩ := Exact.dropContent_release env (L := { Locals.none with
              mgr := inc Locals.none.mgr c.mgr }) hdk (List.getElem?_eq_getElem hltq) rfl
          obtain ⟨h3, h4⟩ := Exact.dropManager_more env (L := Locals.none) h1 (by
            have h5 := (mgrAlive_iff _ _).1 ha
            rw [clones, (dropContent_fields env q _).2.2.2]
            show List.count (some c.mgr) m.st.mgrHandles + 0 ≠ 0
            omega)
          exact ⟨h4.trans h2, trivial, h3⟩
      · rw [if_neg ha, if_neg (fun hx => ha (hal.1 hx))]
        exact ⟨rfl, rfl, h⟩
  | load mh data =>
    simp only [step, Manager.step]
    cases hm : m.st.mgrOf mh with
    | none => exact ⟨rfl, rfl, h⟩
    | some i =>
      obtain ⟨g, hg⟩ := mgrOf_get hi hm
      simp only
      obtain ⟨s', r, h1, h2, m', hm', hb'⟩ := loadBody_run i data m.st g hg (hi.borrow g (List.mem_of_getElem? hg))
        (fun e he => hi.reg_lt (List.mem_of_getElem? hg) he)
      rw [loadStyleData, withBorrow_eq hi hg, h2]
      simp only [unborrow' hm' hb']
      obtain ⟨h3, h4, h5⟩ := loadBody_exact h1 rfl h hi (mgrOf_mem hm)
      cases r <;> exact ⟨h3, h5, h4⟩
  | readData l =>
    simp only [step, Manager.step]
    cases hl : m.st.logs[l]? with
    | none => exact ⟨rfl, rfl, h⟩
    | some log =>
      simp only
      by_cases hr : log.readerTaken = true
      · simp only [hr, if_true]; exact ⟨trivial, trivial, h⟩
      · simp only [hr]
        refine ⟨rfl, rfl, ?_⟩
        refine Exact.dropLog (L := Locals.none) (h.setLogs _ (fun q => ?_) rfl rfl rfl rfl)
        simp only [ends, List.getElem?_set, inc, Locals.none]
        have hlt := (List.getElem?_eq_some_iff.1 hl).1
        by_cases e : l = q
        · subst e; simp only [hlt, hl, hr, if_true, Bool.false_eq_true, if_false]
        · have : ¬ q = l := fun x => e x.symm
          simp [e, this]
  | styleData mh =>
    refine ⟨rfl, rfl, ?_⟩
    have : (Manager.step env (.styleData mh) m.st).1 = m.st := by
      simp only [Manager.step]
      repeat' split
      all_goals rfl
    simp only [step, this]
    exact h
  | page i ch =>
    refine ⟨rfl, rfl, ?_⟩
    simp only [step, Manager.step]
    split
    · exact h.setDom _
    · exact h

/-! ## Histories -/

theorem Exact.init (d : Dom) : Exact Locals.none (Mem.init d) := by
  constructor
  · intro p; rfl
  · intro p; rfl
  · intro i; rfl
  · intro i; rfl
  · intro l; simp [Mem.init, St.init, ends, howMany, Locals.none]
  · rfl

theorem run_exact (env : Env) : ∀ (ops : List Op) {m : Mem}, Exact Locals.none m → Inv m.st →
    Exact Locals.none (run env ops m) ∧ (run env ops m).st = Manager.run env ops m.st
  | [], m, h, _ => ⟨h, rfl⟩
  | op :: ops, m, h, hi => by
    obtain ⟨h1, -, h3⟩ := step_exact env h hi op
    have h4 := run_exact env ops h3 (by rw [h1]; exact inv_step env op hi)
    rw [h1] at h4
    exact h4

end Counts
