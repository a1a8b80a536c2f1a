import Verif.Proofs.Page

/-!
# Ids, texts and recorded style data along a history
-/

namespace Manager

/-! ## Numbers -/

theorem decimalAux_fuel : ∀ (f g n : Nat), n < f → n < g → decimalAux f n = decimalAux g n
  | 0, _, _, h, _ => by omega
  | _ + 1, 0, _, _, h => by omega
  | f + 1, g + 1, n, hf, hg => by
    simp only [decimalAux]
    split
    · rfl
    · rw [decimalAux_fuel f g (n / 10) (by omega) (by omega)]

/-- The usual equation. -/
theorem decimal_eq (n : Nat) : decimal n =
    if n < 10 then [Char.ofNat (48 + n)] else decimal (n / 10) ++ [Char.ofNat (48 + n % 10)] := by
  simp only [decimal]
  rw [decimalAux]
  split
  · rfl
  · rw [decimalAux_fuel n (n / 10 + 1) (n / 10) (by omega) (by omega)]

theorem decimal_induct {P : Nat → Prop} (h1 : ∀ n, n < 10 → P n) (h2 : ∀ n, ¬ n < 10 → P (n / 10) → P n) (n : Nat) :
    P n := by
  induction n using Nat.strongRecOn with
  | ind n ih =>
    by_cases h : n < 10
    · exact h1 n h
    · exact h2 n h (ih _ (by omega))

theorem decimal_digits (n : Nat) : ∀ c ∈ decimal n, c.isDigit = true := by
  induction n using decimal_induct with
  | h1 n h =>
    rw [decimal_eq, if_pos h]
    simp only [List.mem_cons, List.not_mem_nil, or_false, forall_eq]
    have : ∀ m : Fin 10, (Char.ofNat (48 + m.val)).isDigit = true := by decide
    exact this ⟨n, h⟩
  | h2 n h ih =>
    rw [decimal_eq, if_neg h]
    intro c hc
    rcases List.mem_append.1 hc with hc | hc
    · exact ih c hc
    · simp only [List.mem_cons, List.not_mem_nil, or_false] at hc
      subst hc
      have : ∀ m : Fin 10, (Char.ofNat (48 + m.val)).isDigit = true := by decide
      exact this ⟨n % 10, Nat.mod_lt _ (by omega)⟩

theorem decimal_ne_nil (n : Nat) : decimal n ≠ [] := by
  rw [decimal_eq]; split <;> simp

theorem ofNat_digit_inj {a b : Nat} (ha : a < 10) (hb : b < 10) (h : Char.ofNat (48 + a) = Char.ofNat (48 + b)) :
    a = b := by
  have : ∀ a b : Fin 10, Char.ofNat (48 + a.val) = Char.ofNat (48 + b.val) → a = b := by decide
  have := this ⟨a, ha⟩ ⟨b, hb⟩ h
  simpa using this

theorem decimal_inj : ∀ {a b : Nat}, decimal a = decimal b → a = b := by
  intro a
  induction a using decimal_induct with
  | h1 a ha =>
    intro b h
    rw [decimal_eq, if_pos ha, decimal_eq] at h
    split at h
    · rename_i hb
      simp only [List.cons.injEq, and_true] at h
      exact ofNat_digit_inj ha hb h
    · have h1 := congrArg List.length h
      simp only [List.length_append, List.length_cons, List.length_nil] at h1
      exact absurd (List.eq_nil_of_length_eq_zero (by omega)) (decimal_ne_nil (b / 10))
  | h2 a ha ih =>
    intro b h
    rw [decimal_eq, if_neg ha] at h
    conv at h => rhs; rw [decimal_eq]
    split at h
    · have h1 := congrArg List.length h
      simp only [List.length_append, List.length_cons, List.length_nil] at h1
      exact absurd (List.eq_nil_of_length_eq_zero (by omega)) (decimal_ne_nil (a / 10))
    · obtain ⟨h1, h2⟩ := List.append_inj' h rfl
      simp only [List.cons.injEq, and_true] at h2
      have h3 := ofNat_digit_inj (Nat.mod_lt _ (by omega)) (Nat.mod_lt _ (by omega)) h2
      have h4 := ih h1
      omega

/-- The part after the last `-`. -/
def lastPart (s : Str) : Str := (s.reverse.takeWhile (· != '-')).reverse

theorem takeWhile_append_stop {α : Type} (P : α → Bool) : ∀ (l : List α) (a : α) (r : List α),
    (∀ x ∈ l, P x = true) → P a = false → (l ++ a :: r).takeWhile P = l
  | [], a, r, _, ha => by simp [ha]
  | x :: l, a, r, hl, ha => by
    simp only [List.cons_append, List.takeWhile_cons, hl x (by simp), if_true]
    rw [takeWhile_append_stop P l a r (fun y hy => hl y (by simp [hy])) ha]

theorem lastPart_append (a : Str) {b : Str} (hb : '-' ∉ b) : lastPart (a ++ '-' :: b) = b := by
  simp only [lastPart, List.reverse_append, List.reverse_cons, List.append_assoc, List.cons_append, List.nil_append]
  rw [takeWhile_append_stop]
  · simp
  · intro x hx
    simp only [bne_iff_ne, ne_eq]
    rintro rfl
    exact hb (List.mem_reverse.1 hx)
  · decide

theorem makeId_shape (k : Key) (e : Str) : ∃ a, makeId k e = a ++ '-' :: e := by
  simp only [makeId]
  split
  · exact ⟨k.pref ++ c! "-global", by simp⟩
  · exact ⟨k.pref, by simp⟩

theorem lastPart_counter (k : Key) (n : Nat) : lastPart (makeId k (counterEntropy n)) = decimal (n % 2 ^ 64) := by
  obtain ⟨a, ha⟩ := makeId_shape k (counterEntropy n)
  have : makeId k (counterEntropy n) = (a ++ c! "-style") ++ '-' :: decimal (n % 2 ^ 64) := by
    rw [ha]; simp [counterEntropy]
  rw [this]
  apply lastPart_append
  intro h
  have := decimal_digits _ _ h
  revert this; decide

theorem cssIdent_append {a b : Str} (ha : cssIdent a = true) (hb : b.all cssChar = true) :
    cssIdent (a ++ b) = true := by
  cases a with
  | nil => cases ha
  | cons c s =>
    by_cases hc : c = '-'
    · subst hc
      cases s with
      | nil => simp [cssIdent] at ha
      | cons x t =>
        simp only [cssIdent, Bool.and_eq_true, List.cons_append] at ha ⊢
        simp only [List.all_cons, Bool.and_eq_true, List.all_append] at ha ⊢
        exact ⟨ha.1, ha.2.1, ha.2.2, hb⟩
    · have e : ∀ t, cssIdent (c :: t) = (cssStart c && t.all cssChar) := by
        intro t
        rw [cssIdent]
        rintro rfl
        exact hc rfl
      rw [List.cons_append, e, List.all_append]
      rw [e] at ha
      simp only [Bool.and_eq_true] at ha ⊢
      exact ⟨ha.1, ha.2, hb⟩

theorem counterEntropy_css (n : Nat) : (counterEntropy n).all cssChar = true := by
  have hd : ((decimal (n % 2 ^ 64)).all cssChar) = true := by
    rw [List.all_eq_true]
    intro c hc
    have := decimal_digits _ c hc
    simp [cssChar, this]
  rw [counterEntropy, List.all_append, hd]
  decide

theorem cssIdent_makeId' {k : Key} (hk : cssIdent k.pref = true) {e : Str} (he : e.all cssChar = true) :
    cssIdent (makeId k e) = true := by
  simp only [makeId]
  split
  · rw [List.append_assoc]
    refine cssIdent_append hk ?_
    rw [List.all_append, he]
    decide
  · rw [List.append_assoc]
    refine cssIdent_append hk ?_
    rw [List.all_append, he]
    decide

theorem cssIdent_makeId {k : Key} (hk : cssIdent k.pref = true) (n : Nat) :
    cssIdent (makeId k (counterEntropy n)) = true := cssIdent_makeId' hk (counterEntropy_css n)

/-! ## Ids and texts -/

/-- Created styles are numbered by the calls of the entropy source. -/
structure Numbered (env : Env) (s : St) (num : Nat → Nat) : Prop where
  id : ∀ (p : Nat) (c : Content), s.heap[p]? = some c → c.origin = .created →
    num p < s.ctr ∧ c.id = makeId c.key (env.entropy (num p))
  inj : ∀ (p q : Nat) (c c' : Content), s.heap[p]? = some c → c.origin = .created →
    s.heap[q]? = some c' → c'.origin = .created → p < q → num p < num q

/-- The text of a style. -/
def TextOk (c : Content) : Prop :=
  c.text = c.key.ast.toStyleStr (if c.key.isGlobal ∧ c.origin = .created then none else some c.id)

/-- New contents of a step. -/
theorem Tr.newContents {env : Env} {op : Op} {s s' : St} {out : Out} (h : Tr env op s s' out) :
    (s'.heap = s.heap ∧ s.ctr ≤ s'.ctr ∧ s'.ctr ≤ s.ctr + 1) ∨
    (∃ i key, s'.heap = s.heap ++ [newContent env s i key] ∧ s'.ctr = s.ctr + 1) ∨
    (∃ i data r, (∃ mh, op = .load mh data) ∧ LoadRun i data s s' r ∧ s'.ctr = s.ctr) := by
  have same : ∀ s'' : St, s''.heap = s.heap → s''.ctr = s.ctr →
      (s''.heap = s.heap ∧ s.ctr ≤ s''.ctr ∧ s''.ctr ≤ s.ctr + 1) := by
    intro s'' h1 h2; exact ⟨h1, by omega, by omega⟩
  cases h with
  | dropMgrLast mh i _ m0 h ha hm0 =>
    exact Or.inl (same _ (releaseAll_fields env _ _).1 (releaseAll_fields env _ _).2.2.2.2.2)
  | createDebug => exact Or.inl ⟨rfl, by simp, by simp⟩
  | createStatic mh kind src fault _ i m0 ast l log c h hm0 hs hg hc =>
    exact Or.inr (Or.inl ⟨i, _, by rw [← hc]; rfl, rfl⟩)
  | createFail mh kind src fault _ i m0 ast c h hm0 hs hg hc =>
    exact Or.inr (Or.inl ⟨i, _, by rw [← hc], rfl⟩)
  | createMount mh kind src fault _ i m0 ast c d h hm0 hs hg hc =>
    exact Or.inr (Or.inl ⟨i, _, by rw [← hc]; rfl, rfl⟩)
  | drop h p _ e => exact Or.inl (same _ (release_fields env _ _).1 (release_fields env _ _).2.2.2.2.2)
  | unregister => exact Or.inl (same _ (release_fields env _ _).1 (release_fields env _ _).2.2.2.2.2)
  | load mh i data _ _ r _ h hr _ => exact Or.inr (Or.inr ⟨i, data, r, ⟨mh, rfl⟩, hr, hr.mgrs.2.2.1⟩)
  | _ => exact Or.inl (same _ rfl rfl)

theorem LoadRun.newContents {i : Nat} {es : List Entry} {s s' : St} {r : Res Unit} (h : LoadRun i es s s' r) :
    ∃ es' : List Entry, (∀ e ∈ es', e ∈ es) ∧ s'.heap = s.heap ++ es'.map (loadedContent i) := by
  induction h with
  | nil s => exact ⟨[], by simp, by simp⟩
  | same e es s s' r m p c _ _ _ _ _ ih =>
    obtain ⟨es', h1, h2⟩ := ih
    exact ⟨es', fun e he => by simp [h1 e he], h2⟩
  | conflict e es s m p c _ _ _ _ => exact ⟨[], by simp, by simp⟩
  | fresh e es s s' r m hm hg hrun ih =>
    obtain ⟨es', h1, h2⟩ := ih
    refine ⟨e :: es', ?_, ?_⟩
    · intro x hx
      rcases List.mem_cons.1 hx with rfl | hx
      · simp
      · simp [h1 x hx]
    · rw [h2]; simp [St.modReg, St.modMgr]

theorem Numbered.step {env : Env} {op : Op} {s s' : St} {out : Out} {num : Nat → Nat} (h : Tr env op s s' out)
    (hn : Numbered env s num) : ∃ num', Numbered env s' num' := by
  rcases h.newContents with ⟨h1, h2, -⟩ | ⟨i, key, h1, h2⟩ | ⟨i, data, r, -, hr, h2⟩
  · refine ⟨num, ?_, ?_⟩
    · intro p c hc ho
      rw [h1] at hc
      obtain ⟨a, b⟩ := hn.id p c hc ho
      exact ⟨by omega, b⟩
    · rw [h1]; exact hn.inj
  · refine ⟨fun x => if x = s.heap.length then s.ctr else num x, ?_, ?_⟩
    · intro p c hc ho
      rw [h1] at hc
      rcases get_append_cases hc with ⟨hlp, hc1⟩ | ⟨rfl, rfl⟩
      · obtain ⟨a, b⟩ := hn.id p c hc1 ho
        have : p ≠ s.heap.length := by omega
        simp only [this, if_false]
        exact ⟨by omega, b⟩
      · simp only [if_true]
        exact ⟨by omega, rfl⟩
    · intro p q c c' hc ho hc' ho' hpq
      rw [h1] at hc hc'
      rcases get_append_cases hc with ⟨hlp, hc1⟩ | ⟨rfl, rfl⟩
      · have : p ≠ s.heap.length := by omega
        simp only [this, if_false]
        rcases get_append_cases hc' with ⟨hlq, hc2⟩ | ⟨rfl, rfl⟩
        · have : q ≠ s.heap.length := by omega
          simp only [this, if_false]
          exact hn.inj p q c c' hc1 ho hc2 ho' hpq
        · simp only [if_true]; exact (hn.id p c hc1 ho).1
      · rcases get_append_cases hc' with ⟨hlq, hc2⟩ | ⟨h, -⟩ <;> omega
  · obtain ⟨es', -, h3⟩ := hr.newContents
    have hold : ∀ (p : Nat) (c : Content), s'.heap[p]? = some c → c.origin = .created → s.heap[p]? = some c := by
      intro p c hc ho
      rw [h3] at hc
      by_cases hp : p < s.heap.length
      · rw [List.getElem?_append_left hp] at hc; exact hc
      · rw [List.getElem?_append_right (by omega)] at hc
        obtain ⟨e, -, rfl⟩ := List.mem_map.1 (List.mem_of_getElem? hc)
        cases ho
    refine ⟨num, ?_, ?_⟩
    · intro p c hc ho
      obtain ⟨a, b⟩ := hn.id p c (hold p c hc ho) ho
      exact ⟨by omega, b⟩
    · intro p q c c' hc ho hc' ho' hpq
      exact hn.inj p q c c' (hold p c hc ho) ho (hold q c' hc' ho') ho' hpq

theorem numbered_run (env : Env) : ∀ (ops : List Op) {s : St} {num : Nat → Nat}, Inv s → Numbered env s num →
    ∃ num', Numbered env (run env ops s) num'
  | [], _, num, _, h => ⟨num, h⟩
  | op :: ops, s, num, hi, h => by
    obtain ⟨num', h'⟩ := h.step (step_tr env hi op)
    exact numbered_run env ops (inv_step env op hi) h'

theorem numbered_init (env : Env) (d : Dom) : Numbered env (St.init d) (fun _ => 0) := by
  constructor <;> simp [St.init]

theorem ctr_run (env : Env) : ∀ (ops : List Op) {s : St}, Inv s → s.ctr ≤ (run env ops s).ctr ∧
    (run env ops s).ctr ≤ s.ctr + ops.length
  | [], _, _ => by simp [run]
  | op :: ops, s, hi => by
    obtain ⟨h1, h2⟩ := ctr_run env ops (inv_step env op hi)
    have : s.ctr ≤ (step env op s).1.ctr ∧ (step env op s).1.ctr ≤ s.ctr + 1 := by
      rcases (step_tr env hi op).newContents with ⟨-, a, b⟩ | ⟨i, key, -, a⟩ | ⟨i, data, r, -, -, a⟩ <;> omega
    simp only [run, List.length_cons]
    omega

theorem text_step {env : Env} {op : Op} {s s' : St} {out : Out} (h : Tr env op s s' out)
    (hn : ∀ c ∈ s.heap, TextOk c) : ∀ c ∈ s'.heap, TextOk c := by
  rcases h.newContents with ⟨h1, h2, -⟩ | ⟨i, key, h1, h2⟩ | ⟨i, data, r, -, hr, h2⟩
  · rw [h1]; exact hn
  · rw [h1]
    intro c hc
    rcases List.mem_append.1 hc with hc | hc
    · exact hn c hc
    · simp only [List.mem_cons, List.not_mem_nil, or_false] at hc
      subst hc
      simp [TextOk, newContent]
  · obtain ⟨es', -, h3⟩ := hr.newContents
    rw [h3]
    intro c hc
    rcases List.mem_append.1 hc with hc | hc
    · exact hn c hc
    · obtain ⟨e, -, rfl⟩ := List.mem_map.1 hc
      simp [TextOk, loadedContent]

theorem text_run (env : Env) : ∀ (ops : List Op) {s : St}, Inv s → (∀ c ∈ s.heap, TextOk c) →
    ∀ c ∈ (run env ops s).heap, TextOk c
  | [], _, _, h => h
  | op :: ops, _, hi, h => text_run env ops (inv_step env op hi) (text_step (step_tr env hi op) h)

/-! ## Recorded style data -/

structure LogInv (s : St) : Prop where
  log : ∀ (i : Nat) (m : Mgr) (l : Nat) (log : Log), s.mgrs[i]? = some m → m.log = some l → s.logs[l]? = some log →
    log.entries = (createdBy i s.heap).map Content.entry
  free : ∀ (l : Nat) (log : Log), s.logs[l]? = some log → log.writerTaken = false → log.entries = []

theorem LogInv.init (d : Dom) : LogInv (St.init d) := by
  constructor <;> simp [St.init]

theorem LogInv.congr {s s' : St} (hl : LogInv s) (h1 : s'.heap = s.heap)
    (h2 : ∀ (i : Nat) (m' : Mgr) l, s'.mgrs[i]? = some m' → m'.log = some l →
      ∃ m, s.mgrs[i]? = some m ∧ m.log = some l)
    (h3 : s'.logs = s.logs) : LogInv s' := by
  refine ⟨?_, by rw [h3]; exact hl.free⟩
  intro i m' l log hm hlg hlog
  obtain ⟨m, a, b⟩ := h2 i m' l hm hlg
  rw [h1]; rw [h3] at hlog
  exact hl.log i m l log a b hlog

theorem LogInv.step {env : Env} {op : Op} {s s' : St} {out : Out} (h : Tr env op s s' out) (hi : Inv s)
    (hl : LogInv s) : LogInv s' := by
  have idm : ∀ (i : Nat) (m' : Mgr) l, s.mgrs[i]? = some m' → m'.log = some l →
      ∃ m, s.mgrs[i]? = some m ∧ m.log = some l := fun i m' l a b => ⟨m', a, b⟩
  have modm : ∀ (j : Nat) (f : List (Key × Nat) → List (Key × Nat)) (i : Nat) (m' : Mgr) l,
      (s.modReg j f).mgrs[i]? = some m' → m'.log = some l → ∃ m, s.mgrs[i]? = some m ∧ m.log = some l := by
    intro j f i m' l a b
    obtain ⟨m, c, rfl⟩ := getElem?_modReg a
    exact ⟨m, c, b⟩
  have hmgrlt : ∀ c ∈ s.heap, c.mgr < s.mgrs.length := hi.contentMgr
  have take : ∀ w, (∀ l ∈ w, ∃ log, s.logs[l]? = some log ∧ log.writerTaken = false) →
      ∀ (l : Nat) (log' : Log), (s.takeWriter w)[l]? = some log' → ∃ log, s.logs[l]? = some log ∧
        log'.entries = log.entries ∧ (log'.writerTaken = false → log.writerTaken = false) ∧
        (w = some l → log.writerTaken = false) := by
    intro w hw l log' hlog'
    cases w with
    | none => exact ⟨log', hlog', rfl, id, fun h => by cases h⟩
    | some l0 =>
      simp only [St.takeWriter, List.getElem?_modify] at hlog'
      obtain ⟨log0, a1, a2⟩ := hw l0 rfl
      by_cases hll : l0 = l
      · subst hll
        rw [a1] at hlog'
        simp only [if_true, Option.map_eq_map, Option.map_some, Option.some.injEq] at hlog'
        subst hlog'
        exact ⟨log0, a1, rfl, (fun (h : true = false) => by cases h), fun _ => a2⟩
      · cases hx : s.logs[l]? with
        | none => rw [hx] at hlog'; cases hlog'
        | some log1 =>
          rw [hx] at hlog'
          simp only [hll, if_false, Option.map_eq_map, Option.map_some, Option.some.injEq] at hlog'
          subst hlog'
          exact ⟨log1, rfl, rfl, id, fun h => by cases h; exact absurd rfl hll⟩
  cases h with
  | invalid => exact hl
  | renderStatic =>
    refine ⟨?_, ?_⟩
    · intro i m l log hm hlg hlog
      obtain ⟨log0, h0, -⟩ := hi.log m (List.mem_of_getElem? hm) l hlg
      rw [getElem?_append_of _ h0] at hlog; cases hlog
      exact hl.log i m l log hm hlg h0
    · intro l log hlog hf
      rcases get_append_cases hlog with ⟨-, h⟩ | ⟨-, rfl⟩
      · exact hl.free l log h hf
      · rfl
  | newMgrErr pref cont append writer _ hwr _ =>
    refine ⟨?_, ?_⟩
    · intro i m l log' hm hlg hlog'
      obtain ⟨log, a1, a2, -, -⟩ := take writer hwr l log' hlog'
      rw [a2]; exact hl.log i m l log hm hlg a1
    · intro l log' hlog' hf
      obtain ⟨log, a1, a2, a3, -⟩ := take writer hwr l log' hlog'
      rw [a2]; exact hl.free l log a1 (a3 hf)
  | newMgr pref cont append writer cont' _ hwr =>
    refine ⟨?_, ?_⟩
    · intro i m l log' hm hlg hlog'
      obtain ⟨log, a1, a2, -, a4⟩ := take writer hwr l log' hlog'
      rcases get_append_cases hm with ⟨-, hm⟩ | ⟨rfl, rfl⟩
      · rw [a2]; exact hl.log i m l log hm hlg a1
      · rw [a2, hl.free l log a1 (a4 hlg)]
        have : createdBy s.mgrs.length s.heap = [] := by
          refine List.filter_eq_nil_iff.2 (fun c hc => ?_)
          have := hmgrlt c hc
          simp only [decide_eq_true_eq, not_and]
          intro h; omega
        simp [this]
    · intro l log' hlog' hf
      obtain ⟨log, a1, a2, a3, -⟩ := take writer hwr l log' hlog'
      rw [a2]; exact hl.free l log a1 (a3 hf)
  | cloneMgr => exact hl.congr rfl idm rfl
  | dropMgr => exact hl.congr rfl idm rfl
  | dropMgrLast mh i _ m h ha hm =>
    have hf := releaseAll_fields env (m.reg.map Prod.snd)
      (({ s with mgrHandles := s.mgrHandles.set mh none } : St).modReg i (fun _ => []))
    exact hl.congr hf.1 (by rw [hf.2.2.1]; exact modm i (fun _ => [])) hf.2.2.2.2.1
  | createSyntax => exact hl
  | createHit => exact hl.congr rfl idm rfl
  | createDebug => exact hl.congr rfl idm rfl
  | createStatic mh kind src fault _ i m ast l log c h hm hs hg hc hd hlg hlog =>
    have hlt : l < s.logs.length := (List.getElem?_eq_some_iff.1 hlog).1
    refine ⟨?_, ?_⟩
    · intro j m' l' log' hm' hlg' hlog'
      have hm'' : ((s.modReg i (fun reg => reg ++ [(c.key, s.heap.length)])).mgrs)[j]? = some m' := hm'
      obtain ⟨mj, b1, b2⟩ := modm i _ j m' l' hm'' hlg'
      have hcm : c.mgr = i := by rw [hc]; rfl
      have hco : c.origin = .created := by rw [hc]; rfl
      show log'.entries = (createdBy j (s.heap ++ [c])).map Content.entry
      have hlog'' : (s.logs.set l { log with entries := log.entries ++ [c.entry] })[l']? = some log' := hlog'
      by_cases hij : j = i
      · subst hij
        rw [hm] at b1; cases b1
        rw [hlg] at b2; cases b2
        rw [List.getElem?_set_self hlt] at hlog''
        cases hlog''
        have := hl.log j m l log hm hlg hlog
        simp only [createdBy, List.filter_append, List.map_append] at this ⊢
        rw [this]
        simp [hcm, hco]
      · have hll : l ≠ l' := by
          rintro rfl
          exact hij (hi.logUnique j i mj m l b1 hm b2 hlg)
        rw [List.getElem?_set_ne hll] at hlog''
        rw [hl.log j mj l' log' b1 b2 hlog'']
        have : ¬ i = j := fun h => hij h.symm
        simp [createdBy, List.filter_append, hcm, this]
    · intro l' log' hlog' hf
      have hlog'' : (s.logs.set l { log with entries := log.entries ++ [c.entry] })[l']? = some log' := hlog'
      by_cases hll : l = l'
      · subst hll
        rw [List.getElem?_set_self hlt] at hlog''
        cases hlog''
        obtain ⟨log0, h0, h1⟩ := hi.log m (List.mem_of_getElem? hm) l hlg
        rw [hlog] at h0; cases h0
        rw [show ({ log with entries := log.entries ++ [c.entry] } : Log).writerTaken = log.writerTaken from rfl,
          h1] at hf
        cases hf
      · rw [List.getElem?_set_ne hll] at hlog''
        exact hl.free l' log' hlog'' hf
  | createFail mh kind src fault _ i m ast c h hm hs hg hc hd hlg hmt =>
    refine ⟨?_, hl.free⟩
    intro j m' l' log' hm' hlg' hlog'
    have hcm : c.mgr = i := by rw [hc]; rfl
    have hij : ¬ i = j := by
      rintro rfl
      have hm'' : s.mgrs[i]? = some m' := hm'
      rw [hm] at hm''; cases hm''
      rw [hlg] at hlg'; cases hlg'
    rw [hl.log j m' l' log' hm' hlg' hlog']
    show _ = (createdBy j (s.heap ++ [c])).map Content.entry
    simp [createdBy, List.filter_append, hcm, hij]
  | createMount mh kind src fault _ i m ast c d h hm hs hg hc hd hlg hmt =>
    refine ⟨?_, hl.free⟩
    intro j m' l' log' hm' hlg' hlog'
    have hm'' : ((s.modReg i (fun reg => reg ++ [(c.key, s.heap.length)])).mgrs)[j]? = some m' := hm'
    obtain ⟨mj, b1, b2⟩ := modm i _ j m' l' hm'' hlg'
    have hcm : c.mgr = i := by rw [hc]; rfl
    have hij : ¬ i = j := by
      rintro rfl
      rw [hm] at b1; cases b1
      rw [hlg] at b2; cases b2
    have : log'.entries = _ := hl.log j mj l' log' b1 b2 hlog'
    rw [this]
    show _ = (createdBy j (s.heap ++ [c])).map Content.entry
    simp [createdBy, List.filter_append, hcm, hij]
  | clone => exact hl.congr rfl idm rfl
  | drop h p _ e =>
    have hf := release_fields env p ({ s with handles := s.handles.set h none } : St)
    exact hl.congr hf.1 (by rw [hf.2.2.1]; exact idm) hf.2.2.2.2.1
  | unregisterDead => exact hl
  | unregisterNone => exact hl
  | unregister h p q _ c m e hc hm hg =>
    have hf := release_fields env q (s.modReg c.mgr (fun reg => regRemove reg c.key))
    exact hl.congr hf.1 (by rw [hf.2.2.1]; exact modm _ _) hf.2.2.2.2.1
  | load mh i data _ _ r _ h hr _ =>
    obtain ⟨-, h2, -, h4⟩ := hr.mgrs
    obtain ⟨es', -, h3⟩ := hr.newContents
    have hback : ∀ (j : Nat) (m' : Mgr), s'.mgrs[j]? = some m' → j < s.mgrs.length → ∃ m, s.mgrs[j]? = some m ∧ m.Same m' := by
      intro j m' hm' hj
      obtain ⟨m'', a1, a2, -⟩ := h4 j _ (List.getElem?_eq_getElem hj)
      rw [hm'] at a1; cases a1
      exact ⟨_, List.getElem?_eq_getElem hj, a2⟩
    have hlen : s'.mgrs.length = s.mgrs.length := by
      have : ∀ {i es s s' r}, LoadRun i es s s' r → s'.mgrs.length = s.mgrs.length := by
        intro i es s s' r h
        induction h with
        | nil => rfl
        | same _ _ _ _ _ _ _ _ _ _ _ _ _ ih => exact ih
        | conflict => rfl
        | fresh e es s s' r m _ _ _ ih =>
          rw [ih]; simp [St.modReg, St.modMgr]
      exact this hr
    refine ⟨?_, by rw [h2]; exact hl.free⟩
    intro j m' l' log' hm' hlg' hlog'
    obtain ⟨m, b1, b2⟩ := hback j m' hm' (by rw [← hlen]; exact (List.getElem?_eq_some_iff.1 hm').1)
    rw [h2] at hlog'
    rw [hl.log j m l' log' b1 (by rw [← b2.2.2.2]; exact hlg') hlog', h3]
    have : createdBy j (es'.map (loadedContent i)) = [] := by
      refine List.filter_eq_nil_iff.2 (fun c hc => ?_)
      obtain ⟨e, -, rfl⟩ := List.mem_map.1 hc
      simp [loadedContent]
    simp only [createdBy] at this ⊢
    rw [List.filter_append, this, List.append_nil]
  | readData l _ log hlog hr =>
    have hlt : l < s.logs.length := (List.getElem?_eq_some_iff.1 hlog).1
    have key : ∀ (l' : Nat) (log' : Log), (s.logs.set l { log with readerTaken := true })[l']? = some log' →
        ∃ log0, s.logs[l']? = some log0 ∧ log'.entries = log0.entries ∧ log'.writerTaken = log0.writerTaken := by
      intro l' log' hlog'
      by_cases hll : l = l'
      · subst hll
        rw [List.getElem?_set_self hlt] at hlog'
        cases hlog'
        exact ⟨log, hlog, rfl, rfl⟩
      · rw [List.getElem?_set_ne hll] at hlog'
        exact ⟨log', hlog', rfl, rfl⟩
    refine ⟨?_, ?_⟩
    · intro i m l' log' hm hlg hlog'
      obtain ⟨log0, a1, a2, -⟩ := key l' log' hlog'
      rw [a2]; exact hl.log i m l' log0 hm hlg a1
    · intro l' log' hlog' hf
      obtain ⟨log0, a1, a2, a3⟩ := key l' log' hlog'
      rw [a2]; exact hl.free l' log0 a1 (by rw [← a3]; exact hf)
  | styleDataNone => exact hl
  | styleData => exact hl
  | page => exact hl.congr rfl idm rfl

theorem LogInv.run {env : Env} : ∀ (ops : List Op) {s : St}, Inv s → LogInv s → LogInv (Manager.run env ops s)
  | [], _, _, h => h
  | op :: ops, _, hi, h => LogInv.run ops (inv_step env op hi) (h.step (step_tr env hi op) hi)

end Manager
