import Verif.Proofs.Hydrated
import Verif.Props.WholePage
import Verif.Props.Hydration
import Verif.Props.Cascade

/-!
# Pages that come from a server

C92.
-/

namespace Manager

open Spec

/-! ## C92: a hydrated page is the server's page, without the styles that were dropped, and then the new styles -/

/-- **C92.** In every reachable state of an application in a browser, and in every container
in the document: its style elements are those of the original page, in their order, without
those of styles that have been dropped, and after them those of the styles that were created
here and are alive, in the order of creation. The ids are css identifiers and pairwise
distinct, those of the original page as well, and no style created here has an id that the
original page used. -/
theorem C92_elements (env : Env) (hw : env.wasm = true) (d : Dom) (ops : List Op) (s : St)
    (hs : s = run env ops (St.init d)) (hid : ∀ c ∈ s.heap, cssIdent c.id = true)
    (hn : (s.heap.map Content.id).Nodup) (hu : ∀ id, (withId id d.inDoc).length ≤ 1)
    (hb : ∀ c ∈ s.heap, c.origin = .created → withId c.id d.inDoc = []) (i : Nat) (ha : Attached d i) :
    (s.dom.childrenOf i).filter Child.isStyle = remaining d s i ++ (living s i).map Content.element := by
  classical
  have hp : PageInv d s := hs ▸ PageInv.run hw ops (Inv.init d) (hs ▸ hid) (hs ▸ hn) (PageInv.init d)
  have hsub : SubInv d s := hs ▸ SubInv.run hw ops (Inv.init d) (SubInv.init d)
  have hmap : s.dom.map Container.attached = d.map Container.attached :=
    hs ▸ attached_run env ops (Inv.init d)
  have hAt : ∀ j, Attached d j → Attached s.dom j := fun j h => h.of_map hmap
  have hAt' : ∀ j, Attached s.dom j → Attached d j := fun j h => h.of_map hmap.symm
  have ha' := hAt i ha
  have indoc : ∀ {d : Dom} {i : Nat}, Attached d i → ∀ {x : Child} {id : Str}, x ∈ d.childrenOf i →
      x.styleId? = some id → x ∈ withId id d.inDoc := by
    rintro d i ⟨ct, h1, h2⟩ x id hx hxi
    apply Classical.byContradiction
    intro hno
    refine hno (List.mem_filter.2 ⟨?_, by simp [hxi]⟩)
    rw [inDoc_flatMap, List.mem_flatMap]
    refine ⟨ct, List.mem_of_getElem? h1, ?_⟩
    rw [if_pos h2]
    simpa [Dom.childrenOf, h1] using hx
  -- No mounted style has an id of the original page
  have hmnt : ∀ j, ∀ c ∈ mounting s j s.heap, c ∈ s.heap ∧ Mounts s c j ∧ withId c.id d.inDoc = [] := by
    intro j c hc
    obtain ⟨h1, h2⟩ := List.mem_filter.1 hc
    have h2 : Mounts s c j := by simpa using h2
    exact ⟨h1, h2, hb c h1 h2.1⟩
  have hheap : s.heap.Nodup := by
    refine (List.pairwise_map.1 hn).imp ?_
    rintro a b h rfl
    exact h rfl
  -- Nothing is there twice
  have hnd : ((d.childrenOf i).filter Child.isStyle ++ (mounting s i s.heap).map Content.element).Nodup := by
    rw [List.nodup_append]
    refine ⟨styles_nodup ha hu, ?_, ?_⟩
    · rw [List.Nodup, List.pairwise_map]
      have := (List.pairwise_map.1 hn).sublist (List.filter_sublist (p := fun c => decide (Mounts s c i)))
      refine this.imp ?_
      intro a b h he
      exact h (by simpa [Content.element, Child.styleId?] using congrArg Child.styleId? he)
    · rintro x hx y hy rfl
      obtain ⟨c, hc, rfl⟩ := List.mem_map.1 hy
      have := indoc ha (List.mem_filter.1 hx).1 (id := c.id) rfl
      rw [(hmnt i c hc).2.2] at this
      cases this
  rw [filter_eq_of_sublist (hsub i) hnd (fun x => decide (x ∈ (s.dom.childrenOf i).filter Child.isStyle))
    (by simp), List.filter_append]
  congr 1
  · -- The original elements
    rw [remaining, List.filter_filter]
    apply List.filter_congr
    intro x hx
    cases x with
    | other n => simp [Child.isStyle, Child.styleId?]
    | style id t =>
      have hxd := indoc ha hx (id := id) rfl
      have hin : withId id s.dom.inDoc = withId id d.inDoc → Child.style id t ∈ s.dom.childrenOf i := by
        intro h
        rw [← h] at hxd
        obtain ⟨j, hj, hxj⟩ := mem_inDoc (List.mem_filter.1 hxd).1
        have := (hsub j).subset (List.mem_filter.2 ⟨hxj, rfl⟩)
        rcases List.mem_append.1 this with h1 | h1
        · have h1 := (List.mem_filter.1 h1).1
          by_cases hij : i = j
          · subst hij; exact hxj
          · have h2 := withId_two hij ha (hAt' j hj) id
            have h3 := hu id
            have h4 : 0 < (withId id (d.childrenOf i)).length :=
              List.length_pos_of_mem (List.mem_filter.2 ⟨hx, by simp [Child.styleId?]⟩)
            have h5 : 0 < (withId id (d.childrenOf j)).length :=
              List.length_pos_of_mem (List.mem_filter.2 ⟨h1, by simp [Child.styleId?]⟩)
            omega
        · obtain ⟨c, hc, he⟩ := List.mem_map.1 h1
          have hci : c.id = id := by simpa [Content.element, Child.styleId?] using congrArg Child.styleId? he
          have := (hmnt j c hc).2.2
          rw [hci] at this
          rw [h, this] at hxd
          cases hxd
      have key : Child.style id t ∈ s.dom.childrenOf i ↔ Remains s id := by
        by_cases hmem : id ∈ s.heap.map Content.id
        · obtain ⟨c, hc, rfl⟩ := List.mem_map.1 hmem
          obtain ⟨p, hpc⟩ := List.getElem?_of_mem hc
          have hor : c.origin = .hydrated := by
            cases ho : c.origin with
            | hydrated => rfl
            | created => rw [hb c hc ho] at hxd; cases hxd
          have hrem : Remains s c.id ↔ s.Alive p := by
            constructor
            · intro h; exact h p c hpc rfl
            · intro h q c' hq he
              by_cases hqp : q = p
              · exact hqp ▸ h
              · exact absurd he (id_ne hn hpc hq hqp)
          rw [hrem]
          constructor
          · intro hxs
            apply Classical.byContradiction
            intro hl
            have h1 := hp.gone p c hpc (Or.inl hor) hl
            have h2 := indoc ha' hxs (id := c.id) rfl
            rw [h1] at h2
            have h3 := List.length_pos_of_mem h2
            have h4 := hu c.id
            rw [List.length_tail] at h3
            omega
          · intro hl
            exact hin (hp.kept p c hpc (Or.inl hor) hl)
        · constructor
          · intro _ q c hq he
            exact absurd (List.mem_map.2 ⟨c, List.mem_of_getElem? hq, he⟩) hmem
          · intro _
            exact hin (hp.foreign id hmem)
      simp only [Child.isStyle, Child.styleId?, Option.some.injEq, exists_eq_left', Bool.and_true]
      rw [decide_eq_decide, ← key, List.mem_filter]
      exact ⟨fun h => h.1, fun h => ⟨h, rfl⟩⟩
  · -- The new elements
    rw [List.filter_map]
    congr 1
    have hliv : living s i = s.heap.filter (fun c => decide (c ∈ living s i)) :=
      filter_eq_of_sublist (living_sublist s i) hheap _ (by simp)
    rw [hliv, mounting, List.filter_filter]
    apply List.filter_congr
    intro c hc
    rw [Bool.eq_iff_iff]
    simp only [Function.comp_apply, Bool.and_eq_true, decide_eq_true_eq]
    obtain ⟨p, hpc⟩ := List.getElem?_of_mem hc
    constructor
    · rintro ⟨h1, h2⟩
      refine mem_living.2 ⟨p, hpc, ?_, h2⟩
      apply Classical.byContradiction
      intro hl
      have h3 := hp.dead p c i hpc h2 ha' (hb c hc h2.1) hl
      have := indoc ha' (List.mem_filter.1 h1).1 (id := c.id) rfl
      rw [h3] at this; cases this
    · intro h
      obtain ⟨q, h1, h2, h3⟩ := mem_living.1 h
      refine ⟨?_, h3⟩
      have h4 := (hp.alive q c i h1 h3 ha' (hb c hc h3.1) h2).2
      have h5 : Child.style c.id c.text ∈ withId c.id (s.dom.childrenOf i) := by rw [h4]; simp
      exact List.mem_filter.2 ⟨(List.mem_filter.1 h5).1, rfl⟩

/-- The ids of a process with alphanumeric entropy. -/
theorem created_id (env : Env) (d : Dom) (ops : List Op) (s : St) (hs : s = run env ops (St.init d))
    (hal : ∀ n, ∀ x ∈ env.entropy n, x.isAlphanum = true) (c : Content) (hc : c ∈ s.heap) (ho : c.origin = .created) :
    (∃ n, n < s.ctr ∧ lastPart c.id = env.entropy n) ∧ (cssIdent c.key.pref = true → cssIdent c.id = true) := by
  have hdash : ∀ n, '-' ∉ env.entropy n := fun n h => absurd (hal n _ h) (by decide)
  subst hs
  obtain ⟨num, hnum⟩ := numbered_run env ops (Inv.init d) (numbered_init env d)
  obtain ⟨p, hp⟩ := List.getElem?_of_mem hc
  obtain ⟨h0, hid⟩ := hnum.id p c hp ho
  constructor
  · obtain ⟨x, hx⟩ := makeId_shape c.key (env.entropy (num p))
    exact ⟨num p, h0, by rw [hid, hx, lastPart_append _ (hdash _)]⟩
  · intro hpref
    have hd : (env.entropy (num p)).all cssChar = true := by
      rw [List.all_eq_true]
      intro x hx
      have := hal _ x hx
      simp only [Char.isAlphanum, Bool.or_eq_true] at this
      rcases this with h | h <;> simp [cssChar, cssStart, h]
    rw [hid, makeId]
    split
    · rw [List.append_assoc]
      refine cssIdent_append hpref ?_
      rw [List.all_append, hd]; decide
    · rw [List.append_assoc]
      refine cssIdent_append hpref ?_
      rw [List.all_append, hd]; decide

/-- What a browser decides for the declarations of styles is what they say. -/
theorem wins_contents {El : Type} (cs : List Content)
    (h : ∀ c ∈ cs, CleanClass c.id ∧ SelectorsOf (SelectorFor c.cls) c.key.ast) (S : Setting El) (e : El) (k : Str)
    (n : Nat) : S.Wins (cs.flatMap Content.decls) e k n ↔ S.ShouldWin (cs.flatMap Content.said) e k n := by
  have : cs.flatMap Content.decls = (cs.flatMap Content.said).map (fun y => CascadeP.declOf y.1 y.2) := by
    rw [List.map_flatMap]
    congr 1
    funext c
    rw [Content.decls, Content.said, List.map_map, CascadeP.decls_eq]
    rfl
  rw [this]
  refine CascadeP.winner_map _ _ ?_ k n
  intro y hy
  obtain ⟨c, hc, hy⟩ := List.mem_flatMap.1 hy
  obtain ⟨x, hx, rfl⟩ := List.mem_map.1 hy
  refine ⟨rfl, rfl, fun n => CascadeP.strength_iff ?_ (CascadeP.fine_of (h c hc).2 x hx) S e n⟩
  intro c' hc'
  rw [Content.cls] at hc'
  split at hc'
  · cases hc'
  · cases hc'
    exact (h c hc).1

theorem filter_pair (L : List Child) (ps : List (Str × Str)) (h : L.filterMap Child.pair? = ps) :
    L.filter Child.isStyle = ps.map (fun x => .style x.1 x.2) := by
  subst h
  induction L with
  | nil => rfl
  | cons x L ih =>
    cases x with
    | other n => exact ih
    | style id t =>
      rw [List.filter_cons_of_pos rfl, List.filterMap_cons, Child.pair?, ih]
      rfl

theorem loadedIds_append (a b : List Op) : loadedIds (a ++ b) = loadedIds a ++ loadedIds b := by
  induction a with
  | nil => rfl
  | cons op a ih => cases op <;> simp [loadedIds, ih]

theorem loadedIds_nil {ops : List Op} (h : ∀ mh data, Op.load mh data ∉ ops) : loadedIds ops = [] := by
  induction ops with
  | nil => rfl
  | cons op ops ih =>
    have ih := ih (fun mh data hm => h mh data (by simp [hm]))
    cases op with
    | load mh data => exact absurd (by simp) (h mh data)
    | _ => exact ih

/-- What is read of a log. -/
theorem data_read (senv : Env) (sd : Dom) (sops : List Op) (server : St) (hserver : server = run senv sops (St.init sd))
    (i l : Nat) (m : Mgr) (hm : server.mgrs[i]? = some m) (hlog : m.log = some l) (out : List Entry)
    (hout : (∃ sh, server.mgrOf sh = some i ∧ (step senv (.styleData sh) server).2 = .data out) ∨
      (step senv (.readData l) server).2 = .data out) :
    out = (createdBy i server.heap).map Content.entry := by
  have hread := C31_read senv sd sops server hserver i l m hm hlog
  rcases hout with ⟨sh, hi, hout⟩ | hout
  · rw [hread.1 sh hi] at hout
    cases hout; rfl
  · cases hl : server.logs[l]? with
    | none => simp [step, hl] at hout
    | some log =>
      cases ht : log.readerTaken with
      | true => simp [step, hl, ht] at hout
      | false =>
        rw [hread.2 log hl ht] at hout
        cases hout; rfl

set_option maxHeartbeats 400000 in
/-- **C92** for a server and a client, the part that holds. A server process with a static
manager `i` writes the style data `out`, by the manager or by the reader, and the markup of it. The client's page has the
markup in container `k`, and otherwise no style elements. The client does what it likes, but
loads style data once, with the keys and classes of `out`. Ids are random: alphanumeric and,
as far as they have been used, all different, also across the processes; the prefixes of the styles are css
identifiers. Then in every
reachable state the style elements of container `k` are those of the server in the order in
which the server created the styles, without those of styles that the client has dropped,
and then those of the living styles that the client created, in their order. In other
containers there are only the latter. If the sheets are whole and escaping changes nothing, a
browser reads the declarations of these styles one after the other, and decides between them
as the styles say. Missing: ids that are unique only within a process, see
`C92_false_counter`. -/
theorem C92_application_partial {El : Type}
    (senv : Env) (sd : Dom) (sops : List Op) (server : St) (hserver : server = run senv sops (St.init sd))
    (i l : Nat) (m : Mgr) (hm : server.mgrs[i]? = some m) (hlog : m.log = some l) (out : List Entry)
    (hout : (∃ sh, server.mgrOf sh = some i ∧ (step senv (.styleData sh) server).2 = .data out) ∨
      (step senv (.readData l) server).2 = .data out)
    (esc : Str → Str) (hesc : ∀ t, Html.endTags (esc t) = 0)
    (env : Env) (hw : env.wasm = true) (d : Dom) (k : Nat) (hk : Attached d k)
    (hpage : Html.readStyles out.length (writeStaticMarkup esc out) = some ((d.childrenOf k).filterMap Child.pair?))
    (hrest : ∀ j, j ≠ k → ∀ x ∈ d.childrenOf j, x.isStyle = false)
    (pre post : List Op) (ch : Nat) (data : List Entry)
    (hload : ∀ mh data, Op.load mh data ∉ pre ∧ Op.load mh data ∉ post)
    (hdata : data.map (fun e => (e.key, e.id)) = out.map (fun e => (e.key, e.id)))
    (s : St) (hs : s = run env (pre ++ .load ch data :: post) (St.init d))
    (hal : ∀ n, (∀ x ∈ senv.entropy n, x.isAlphanum = true) ∧ ∀ x ∈ env.entropy n, x.isAlphanum = true)
    (hdis : ∀ a b, a < server.ctr → b < server.ctr → senv.entropy a = senv.entropy b → a = b)
    (hdis' : ∀ a b, a < s.ctr → b < s.ctr → env.entropy a = env.entropy b → a = b)
    (hcross : ∀ a b, a < server.ctr → b < s.ctr → senv.entropy a ≠ env.entropy b)
    (hpref : ∀ c ∈ createdBy i server.heap ++ s.heap, cssIdent c.key.pref = true) :
    let served := undropped s (createdBy i server.heap)
    ((s.dom.childrenOf k).filter Child.isStyle =
        served.map (fun c => .style c.id (esc c.text)) ++ (living s k).map Content.element) ∧
    (∀ j, j ≠ k → Attached d j → (s.dom.childrenOf j).filter Child.isStyle = (living s j).map Content.element) ∧
    ((∀ c ∈ served, esc c.text = c.text) → (∀ c ∈ served ++ living s k, WholeSheet c.key.ast ∧ CleanClass c.id) →
      pageReads (s.dom.childrenOf k) = some ((served ++ living s k).flatMap Content.decls) ∧
      ((∀ c ∈ served ++ living s k, SelectorsOf (SelectorFor c.cls) c.key.ast) →
        ∀ (S : Setting El) (e : El) (key : Str) (n : Nat),
          S.Wins ((served ++ living s k).flatMap Content.decls) e key n ↔
            S.ShouldWin ((served ++ living s k).flatMap Content.said) e key n)) := by
  classical
  intro served
  -- The server's data
  have hout := data_read senv sd sops server hserver i l m hm hlog out hout
  subst hout
  have hsmem : ∀ c ∈ createdBy i server.heap, c ∈ server.heap ∧ c.origin = .created := by
    intro c hc
    obtain ⟨h1, h2⟩ := List.mem_filter.1 hc
    simp only [decide_eq_true_eq] at h2
    exact ⟨h1, h2.2⟩
  have hscre := fun c hc => created_id senv sd sops server hserver (fun n => (hal n).1) c (hsmem c hc).1 (hsmem c hc).2
  have hsid : ∀ c ∈ createdBy i server.heap, cssIdent c.id = true :=
    fun c hc => (hscre c hc).2 (hpref c (by simp [hc]))
  have hsn : ((createdBy i server.heap).map Content.id).Nodup := by
    have : (server.heap.filter (fun c => decide (c.origin = .created))).Pairwise (fun a b => a.id ≠ b.id) := by
      rw [List.pairwise_filter]
      rw [List.pairwise_iff_getElem]
      intro a b ha hb hab h1 h2 he
      have := C21_random senv sd sops server hserver (fun n _ h => absurd ((hal n).1 _ h) (by decide))
        hdis a b _ _ (List.getElem?_eq_getElem ha) (List.getElem?_eq_getElem hb)
        (by simpa using h1) (by simpa using h2) he
      omega
    rw [List.Nodup, List.pairwise_map]
    refine this.sublist ?_
    rw [createdBy]
    have : server.heap.filter (fun c => decide (c.mgr = i ∧ c.origin = .created)) =
        (server.heap.filter (fun c => decide (c.origin = .created))).filter (fun c => decide (c.mgr = i)) := by
      rw [List.filter_filter]
      apply List.filter_congr
      intro x _
      simp
    rw [this]
    exact List.filter_sublist
  -- The original page
  have hquote : ∀ e ∈ (createdBy i server.heap).map Content.entry, '"' ∉ e.id := by
    intro e he hq
    obtain ⟨c, hc, rfl⟩ := List.mem_map.1 he
    exact absurd (cssIdent_mem (hsid c hc) _ hq) (by decide)
  rw [C32_markup_reads_back esc _ hesc hquote, Option.some.injEq] at hpage
  have hdk : (d.childrenOf k).filter Child.isStyle =
      (createdBy i server.heap).map (fun c => .style c.id (esc c.text)) := by
    rw [filter_pair _ _ hpage.symm, List.map_map, List.map_map]
    rfl
  have horig : ∀ x ∈ d.inDoc, ∀ id, x.styleId? = some id → x ∈ d.childrenOf k ∧
      ∃ c ∈ createdBy i server.heap, c.id = id := by
    intro x hx id hxi
    obtain ⟨j, -, hxj⟩ := mem_inDoc hx
    have hst : x.isStyle = true := by cases x <;> simp_all [Child.isStyle, Child.styleId?]
    by_cases hjk : j = k
    · subst hjk
      refine ⟨hxj, ?_⟩
      have : x ∈ (d.childrenOf j).filter Child.isStyle := List.mem_filter.2 ⟨hxj, hst⟩
      rw [hdk] at this
      obtain ⟨c, hc, rfl⟩ := List.mem_map.1 this
      exact ⟨c, hc, by simpa [Child.styleId?] using hxi⟩
    · rw [hrest j hjk x hxj] at hst; cases hst
  have hu : ∀ id, (withId id d.inDoc).length ≤ 1 := by
    intro id
    have h0 : ∀ (d : Dom), (∀ j, j ≠ k → ∀ x ∈ d.childrenOf j, x.isStyle = false) →
        (withId id d.inDoc).length ≤ (withId id (d.childrenOf k)).length := by
      intro d
      generalize hk' : k = k'
      clear hk'
      induction d generalizing k' with
      | nil => intro _; simp [Dom.inDoc, withId]
      | cons ct d ih =>
        intro hr
        rw [Dom.inDoc, withId, List.filter_append, List.length_append]
        have hnone : ∀ L : List Child, (∀ x ∈ L, x.isStyle = false) →
            L.filter (fun x => decide (x.styleId? = some id)) = [] := by
          intro L hL
          rw [List.filter_eq_nil_iff]
          intro x hx
          have := hL x hx
          cases x <;> simp_all [Child.isStyle, Child.styleId?]
        cases k' with
        | zero =>
          have h1 : (Dom.inDoc d).filter (fun x => decide (x.styleId? = some id)) = [] := by
            apply hnone
            intro x hx
            obtain ⟨j, -, hxj⟩ := mem_inDoc hx
            exact hr (j + 1) (by omega) x (by simpa [Dom.childrenOf] using hxj)
          rw [h1]
          split
          · simp [Dom.childrenOf, withId]
          · simp
        | succ k' =>
          have h1 : (if ct.attached then ct.children else []).filter (fun x => decide (x.styleId? = some id)) = [] := by
            apply hnone
            intro x hx
            split at hx
            · exact hr 0 (by omega) x (by simpa [Dom.childrenOf] using hx)
            · cases hx
          rw [h1]
          have := ih k' (fun j hj x hx => hr (j + 1) (by omega) x (by simpa [Dom.childrenOf] using hx))
          simpa [withId, Dom.childrenOf] using this
    refine Nat.le_trans (h0 d hrest) ?_
    rw [← withId_isStyle, hdk, withId, List.filter_map, List.length_map]
    have h2 : ∀ cs : List Content, (cs.map Content.id).Nodup →
        (cs.filter ((fun x : Child => decide (x.styleId? = some id)) ∘ fun c => .style c.id (esc c.text))).length ≤ 1 := by
      intro cs
      induction cs with
      | nil => simp
      | cons c cs ih =>
        intro hn
        rw [List.map_cons, List.nodup_cons] at hn
        rw [List.filter_cons]
        split
        · rename_i h
          simp only [Function.comp_apply, Child.styleId?, Option.some.injEq, decide_eq_true_eq] at h
          have : cs.filter ((fun x : Child => decide (x.styleId? = some id)) ∘ fun c => .style c.id (esc c.text)) = [] := by
            rw [List.filter_eq_nil_iff]
            intro c' hc' he
            simp only [Function.comp_apply, Child.styleId?, Option.some.injEq, decide_eq_true_eq] at he
            exact hn.1 (List.mem_map.2 ⟨c', hc', he.trans h.symm⟩)
          rw [this]; simp
        · exact ih hn.2
    exact h2 _ hsn
  -- The client's styles
  have hdi : data.map Entry.id = (createdBy i server.heap).map Content.id := by
    have := congrArg (List.map Prod.snd) hdata
    simpa [List.map_map, Function.comp_def, Content.entry] using this
  have hcre := fun c hc ho => created_id env d _ s hs (fun n => (hal n).2) c hc ho
  have hyd : ∀ c ∈ s.heap, c.origin = .hydrated → ∃ sc ∈ createdBy i server.heap, sc.id = c.id := by
    intro c hc ho
    rcases hydrated_run env _ (Inv.init d) c (hs ▸ hc) ho with h | ⟨mh, data', e, h1, h2, h3⟩
    · simp [St.init] at h
    · have hd : data' = data := by
        rcases List.mem_append.1 h1 with h | h
        · exact absurd h (hload _ _).1
        · rcases List.mem_cons.1 h with h | h
          · cases h; rfl
          · exact absurd h (hload _ _).2
      subst hd
      have : e.id ∈ data'.map Entry.id := List.mem_map_of_mem h2
      rw [hdi] at this
      obtain ⟨sc, h4, h5⟩ := List.mem_map.1 this
      exact ⟨sc, h4, by rw [h5, h3]; rfl⟩
  have hmix : ∀ c ∈ s.heap, c.origin = .created → ∀ sc ∈ createdBy i server.heap, sc.id ≠ c.id := by
    intro c hc ho sc hsc he
    obtain ⟨a, hla, h1⟩ := (hscre sc hsc).1
    obtain ⟨b, hlb, h2⟩ := (hcre c hc ho).1
    rw [← he, h1] at h2
    exact hcross _ _ hla hlb h2
  have hid : ∀ c ∈ s.heap, cssIdent c.id = true := by
    intro c hc
    cases ho : c.origin with
    | created => exact (hcre c hc ho).2 (hpref c (by simp [hc]))
    | hydrated =>
      obtain ⟨sc, h1, h2⟩ := hyd c hc ho
      exact h2 ▸ hsid sc h1
  have hn : (s.heap.map Content.id).Nodup := by
    apply heap_nodup
    · rw [List.Nodup, List.pairwise_map, List.pairwise_filter, List.pairwise_iff_getElem]
      intro a b ha hb hab h1 h2 he
      have := C21_random env d _ s hs (fun n _ h => absurd ((hal n).2 _ h) (by decide))
        hdis' a b _ _ (List.getElem?_eq_getElem ha) (List.getElem?_eq_getElem hb)
        (by simpa using h1) (by simpa using h2) he
      omega
    · have := hydratedIds_run env (pre ++ .load ch data :: post) (Inv.init d)
      rw [← hs, loadedIds_append, loadedIds_nil (fun mh data => (hload mh data).1), loadedIds,
        loadedIds_nil (fun mh data => (hload mh data).2), hdi] at this
      exact hsn.sublist (by simpa [hydratedIds, St.init] using this)
    · intro c hc c' hc' ho ho' he
      obtain ⟨sc, h1, h2⟩ := hyd c' hc' ho'
      exact hmix c hc ho sc h1 (h2.trans he.symm)
  have hb : ∀ c ∈ s.heap, c.origin = .created → withId c.id d.inDoc = [] := by
    intro c hc ho
    rw [withId, List.filter_eq_nil_iff]
    intro x hx hxi
    obtain ⟨-, sc, h1, h2⟩ := horig x hx c.id (by simpa using hxi)
    exact hmix c hc ho sc h1 h2
  have main := fun j hj => C92_elements env hw d _ s hs hid hn hu hb j hj
  have hremk : remaining d s k = served.map (fun c => .style c.id (esc c.text)) := by
    have : remaining d s k = ((d.childrenOf k).filter Child.isStyle).filter
        (fun x => decide (∃ id, x.styleId? = some id ∧ Remains s id)) := by
      rw [remaining, List.filter_filter]
      apply List.filter_congr
      intro x _
      cases x <;> simp [Child.isStyle, Child.styleId?]
    rw [this, hdk, List.filter_map]
    congr 1
    apply List.filter_congr
    intro c _
    simp [Child.styleId?]
  have hel := main k hk
  rw [hremk] at hel
  refine ⟨hel, ?_, ?_⟩
  · intro j hj ha
    rw [main j ha]
    have : remaining d s j = [] := by
      rw [remaining, List.filter_eq_nil_iff]
      intro x hx
      have := hrest j hj x hx
      cases x <;> simp_all [Child.isStyle, Child.styleId?]
    rw [this, List.nil_append]
  · intro he hwh
    constructor
    · have : served.map (fun c => Child.style c.id (esc c.text)) = served.map Content.element := by
        apply List.map_congr_left
        intro c hc
        rw [he c hc]; rfl
      rw [← pageReads_isStyle, hel, this, ← List.map_append]
      apply pageReads_elements
      intro c hc
      have hws := fun x hx => ((hwh c hc).2.2 x hx).2
      rcases List.mem_append.1 hc with h | h
      · have hc0 : c ∈ createdBy i server.heap := (List.mem_filter.1 h).1
        exact reads_created (text_run senv sops (Inv.init sd) (by simp [St.init]) c (hserver ▸ (hsmem c hc0).1))
          (hsmem c hc0).2 (hsid c hc0) hws (hwh c hc).1
      · obtain ⟨p, h1, -, h3⟩ := mem_living.1 h
        have hmem := List.mem_of_getElem? h1
        exact reads_created (text_run env _ (Inv.init d) (by simp [St.init]) c (hs ▸ hmem)) h3.1 (hid c hmem) hws
          (hwh c hc).1
    · intro hsel S e key n
      exact wins_contents _ (fun c hc => ⟨(hwh c hc).2, hsel c hc⟩) S e key n

/-! ### A case -/

/-- A server with random ids: three styles. -/
def hydServerEnv : Env := { serverEnv with entropy := fun n => List.replicate n 's' ++ ['s'] }

/-- Its history. -/
def hydServerOps : List Op :=
  [ .renderStatic, .newMgr (c! "stylist") none true (some 0),
    .create 0 .scoped (.text (c! "color: red;")) false,
    .create 0 .scoped (.text (c! "color: blue; &:hover { left: 0; }")) false,
    .create 0 .global (.sheet demoRed) false ]

/-- An escaper. -/
def hydEsc (t : Str) : Str := t.filter (· != '<')

/-- What the server recorded. -/
def hydData : List Entry :=
  (createdBy 0 (run hydServerEnv hydServerOps (St.init [])).heap).map Content.entry

/-- The page that the client gets. -/
def hydPage : Dom := [⟨true, .other 7 :: hydData.map (fun e => .style e.id (hydEsc e.text))⟩, ⟨true, []⟩]

/-- The client: random ids. -/
def hydEnv : Env := { demoEnv with entropy := fun n => List.replicate n 'c' ++ ['c'] }

/-- It loads the data, makes a style of its own and one of the server's, and drops the
latter. -/
def hydPost : List Op :=
  [ .create 0 .scoped (.text (c! "top: 1px;")) false,
    .create 0 .scoped (.text (c! "color: red;")) false,
    .create 1 .scoped (.text (c! "color: blue; &:hover { left: 0; }")) false,
    .unregister 1, .drop 1 ]

/-- Before. -/
def hydPre : List Op := [.newMgr (c! "stylist") none true none, .newMgr (c! "app") (some 0) true none]

set_option maxRecDepth 16000 in
/-- Non-vacuity: the hypotheses of C92 for this case, and the page spelled out. The element
of the style that was dropped is gone; the new ones come last. -/
example : let server := run hydServerEnv hydServerOps (St.init [])
    let s := run hydEnv (hydPre ++ .load 0 hydData :: hydPost) (St.init hydPage)
    server.mgrOf 0 = some 0 ∧ (server.mgrs[0]?).map Mgr.log = some (some 0) ∧
    (step hydServerEnv (.styleData 0) server).2 = .data hydData ∧ (∀ t, Html.endTags (hydEsc t) = 0) ∧
    hydEnv.wasm = true ∧ Attached hydPage 0 ∧
    Html.readStyles hydData.length (writeStaticMarkup hydEsc hydData) =
      some ((hydPage.childrenOf 0).filterMap Child.pair?) ∧
    (∀ j, j ≠ 0 → ∀ x ∈ hydPage.childrenOf j, x.isStyle = false) ∧
    (∀ mh data, Op.load mh data ∉ hydPre ∧ Op.load mh data ∉ hydPost) ∧
    (∀ n, (∀ x ∈ hydServerEnv.entropy n, x.isAlphanum = true) ∧ ∀ x ∈ hydEnv.entropy n, x.isAlphanum = true) ∧
    (∀ a b, hydServerEnv.entropy a = hydServerEnv.entropy b → a = b) ∧
    (∀ a b, hydEnv.entropy a = hydEnv.entropy b → a = b) ∧ (∀ a b, hydServerEnv.entropy a ≠ hydEnv.entropy b) ∧
    (∀ c ∈ server.heap ++ s.heap, cssIdent c.key.pref = true) ∧
    (∀ c ∈ server.heap ++ s.heap, WholeSheet c.key.ast ∧ CleanClass c.id ∧ SelectorsOf (SelectorFor c.cls) c.key.ast) ∧
    (∀ c ∈ server.heap, hydEsc c.text = c.text) ∧
    pageReads (s.dom.childrenOf 0) = some
      [ ⟨[c! ".stylist-ss"], c! "color", c! "blue"⟩, ⟨[c! ".stylist-ss:hover"], c! "left", c! "0"⟩,
        ⟨[c! ":root"], c! "color", c! "red"⟩,
        ⟨[c! ".stylist-c"], c! "top", c! "1px"⟩,
        ⟨[c! ".app-cc"], c! "color", c! "blue"⟩, ⟨[c! ".app-cc:hover"], c! "left", c! "0"⟩ ] := by
  have hinj : ∀ (x : Char) (a b : Nat), List.replicate a x ++ [x] = List.replicate b x ++ [x] → a = b := by
    intro x a b h
    simpa using congrArg List.length h
  refine ⟨by decide +kernel, by decide +kernel, by decide +kernel, ?_, rfl, ⟨_, rfl, rfl⟩, by decide +kernel, ?_, ?_,
    ?_, hinj 's', hinj 'c', ?_, by decide +kernel, by decide +kernel, by decide +kernel, by decide +kernel⟩
  · intro t
    have := Html.endTags_free (s := t.filter (· != '<')) [] (by simp)
    simpa [Html.endTags, hydEsc] using this
  · intro j hj x hx
    match j, hj with
    | 1, _ => cases hx
    | j + 2, _ => cases hx
  · intro mh data
    simp [hydPre, hydPost]
  · intro n
    constructor
    · intro x hx
      have : x = 's' := by
        simp only [hydServerEnv, List.mem_append, List.mem_replicate, List.mem_singleton] at hx
        exact hx.elim And.right id
      subst this; decide
    · intro x hx
      have : x = 'c' := by
        simp only [hydEnv, List.mem_append, List.mem_replicate, List.mem_singleton] at hx
        exact hx.elim And.right id
      subst this; decide
  · intro a b h
    have := congrArg List.getLast? h
    simp [hydServerEnv, hydEnv] at this

/-- **C92 is false** with ids from the counter, which starts anew in every process. The
server's style of `red` and the client's first style, of `blue`, are both
`stylist-style-0`. When the client drops its style, the element of the server is removed:
the page has the dropped style, and not the one that is alive. -/
theorem C92_false_counter :
    let page : Dom := [⟨true, [.style (c! "stylist-style-0") (c! ".stylist-style-0 {\n    color: red;\n}\n")]⟩]
    let s := run demoEnv [.newMgr (c! "stylist") none true none,
      .load 0 [⟨⟨false, c! "stylist", demoRed⟩, c! "stylist-style-0", []⟩],
      .create 0 .scoped (.text (c! "color: red;")) false,
      .create 0 .scoped (.text (c! "color: blue;")) false,
      .unregister 1, .drop 1] (St.init page)
    s.className 0 = some (c! "stylist-style-0") ∧ s.Alive 0 ∧ ¬ s.Alive 1 ∧
    pageReads (s.dom.childrenOf 0) = some [⟨[c! ".stylist-style-0"], c! "color", c! "blue"⟩] := by
  decide +kernel

/-- The order among the server's styles is that of the server. A client that makes the same
styles in another order does not change it. -/
theorem C92_limit_order :
    let s := run hydEnv (hydPre ++ .load 0 hydData ::
      [ .create 0 .scoped (.text (c! "color: blue; &:hover { left: 0; }")) false,
        .create 0 .scoped (.text (c! "color: red;")) false ]) (St.init hydPage)
    s.className 0 = some (c! "stylist-ss") ∧ s.className 1 = some (c! "stylist-s") ∧
    s.dom = hydPage := by
  decide +kernel

end Manager
