import Verif.Proofs.Context
import Verif.Spec.Sources

/-!
# Sources on top of providers
-/

namespace Sources

open Manager
open Context (Place AppOk mem_own Quiet givenOf cloneMgr_ok contextMgr_ok load_ok givenOf_kept)
open Yew (mgrOf_step mgrOf_lt)

/-! ## What an application does not touch -/

/-- Handles below `n` that the library does not keep stay as they are. -/
def Frame (n : Nat) (a a' : Context.App) : Prop :=
  Inv a.st → Inv a'.st ∧ ∀ x i, x < n → a.st.mgrOf x = some i → x ∉ a.own → a'.st.mgrOf x = some i ∧ x ∉ a'.own

theorem Frame.refl (n : Nat) (a : Context.App) : Frame n a a := fun h => ⟨h, fun _ _ _ h1 h2 => ⟨h1, h2⟩⟩

theorem Frame.trans {n : Nat} {a b c : Context.App} (h : Frame n a b) (h' : Frame n b c) : Frame n a c := by
  intro hi
  obtain ⟨i1, f1⟩ := h hi
  obtain ⟨i2, f2⟩ := h' i1
  refine ⟨i2, fun x i hx hm hn => ?_⟩
  obtain ⟨h1, h2⟩ := f1 x i hx hm hn
  exact f2 x i hx h1 h2

theorem Frame.quiet {env : Env} {D : Nat → Prop} {n : Nat} {a : Context.App} {s' : St} (hq : Quiet env D a.st s')
    (hd : ∀ x, D x → n ≤ x ∨ x ∈ a.own) : Frame n a { a with st := s' } := by
  intro hi
  refine ⟨hq.inv hi, fun x i hx hm hn => ⟨hq.mgrOf hi hm (fun h => ?_), hn⟩⟩
  rcases hd x h with h | h
  · omega
  · exact hn h

theorem Frame.clone {env : Env} {n : Nat} {a a' : Context.App} {mh mh' : Nat} (h : Context.cloneMgr env a mh = some (a', mh')) :
    Frame n a a' := by
  obtain ⟨i, -, -, h3, -, h5, -⟩ := cloneMgr_ok h
  rw [h3]
  exact Frame.quiet h5 (by simp)

theorem Frame.load {env : Env} {n : Nat} {a a' : Context.App} {mh : Nat} {data : Option (List Entry)}
    (h : Context.load env a mh data = some a') : Frame n a a' := by
  obtain ⟨h1, h2⟩ := load_ok h
  rw [h1]
  exact Frame.quiet h2 (by simp)

theorem Frame.dropMgr {env : Env} {n : Nat} (a : Context.App) {mh : Nat} (h : n ≤ mh ∨ mh ∈ a.own) :
    Frame n a (Context.dropMgr env a mh) :=
  Frame.quiet (Context.dropMgr_ok a mh) (fun _ e => e ▸ h)

/-- The providers change. -/
theorem Frame.provs {n : Nat} {a : Context.App} {ps : List (Option Context.Prov)}
    (h : ∀ (j : Nat) (p : Context.Prov), ps[j]? = some (some p) →
      (∃ j' : Nat, a.provs[j']? = some (some p)) ∨ (n ≤ p.memo ∧ n ≤ p.ctx)) : Frame n a { a with provs := ps } := by
  refine fun hi => ⟨hi, fun x i hx hm hn => ⟨hm, fun hx' => ?_⟩⟩
  rcases mem_own.1 hx' with hx' | ⟨j, p, hj, hp⟩
  · exact hn (mem_own.2 (.inl hx'))
  · rcases h j p hj with ⟨j', hj'⟩ | ⟨h1, h2⟩
    · exact hn (mem_own.2 (.inr ⟨j', p, hj', hp⟩))
    · simp only [Context.Prov.handles, List.mem_cons, List.not_mem_nil, or_false] at hp
      rcases hp with rfl | rfl <;> omega

theorem clone_ge {env : Env} {a a' : Context.App} {mh mh' : Nat} (h : Context.cloneMgr env a mh = some (a', mh')) :
    mh' = a.st.mgrHandles.length ∧ a'.provs = a.provs ∧ a'.dflt = a.dflt ∧ a.st.mgrHandles.length ≤ a'.st.mgrHandles.length := by
  obtain ⟨i, -, h2, h3, -, -, h6⟩ := cloneMgr_ok h
  exact ⟨h2, by rw [h3], by rw [h3], by omega⟩

theorem load_ge {env : Env} {a a' : Context.App} {mh : Nat} {data : Option (List Entry)} (hi : Inv a.st)
    (h : Context.load env a mh data = some a') :
    a'.provs = a.provs ∧ a'.dflt = a.dflt ∧ a.st.mgrHandles.length ≤ a'.st.mgrHandles.length := by
  obtain ⟨h1, h2⟩ := load_ok h
  exact ⟨by rw [h1], by rw [h1], h2.length hi⟩

theorem mount_frame {env : Env} {a a' : Context.App} {mh : Nat} {data : Option (List Entry)} (hi : Inv a.st)
    (he : Context.mount env a mh data = some a') : Frame a.st.mgrHandles.length a a' := by
  simp only [Context.mount] at he
  split at he
  · cases he
  rename_i a1 memo h1
  split at he
  · cases he
  rename_i a2 h2
  split at he
  · cases he
  rename_i a3 ctx h3
  cases he
  have f1 : Frame a.st.mgrHandles.length a a1 := .clone h1
  have i1 := (f1 hi).1
  have f2 : Frame a.st.mgrHandles.length a1 a2 := .load h2
  have f3 : Frame a.st.mgrHandles.length a2 a3 := .clone h3
  obtain ⟨e1, -, -, e1'⟩ := clone_ge h1
  obtain ⟨-, -, e2⟩ := load_ge i1 h2
  obtain ⟨e3, -⟩ := clone_ge h3
  refine (f1.trans f2).trans (f3.trans (Frame.provs ?_))
  intro j p hj
  rcases Context.append_some_cases hj with ⟨-, e⟩ | ⟨-, e⟩
  · cases e; exact .inr ⟨by simp only; omega, by simp only; omega⟩
  · exact .inl ⟨j, e⟩

theorem unmount_frame {env : Env} {n : Nat} {a a' : Context.App} {j : Nat}
    (he : Context.unmount env a j = some a') : Frame n a a' := by
  simp only [Context.unmount] at he
  split at he
  case h_2 => cases he
  rename_i p hj
  cases he
  have m1 : p.memo ∈ a.own := mem_own.2 (.inr ⟨j, p, hj, by simp [Context.Prov.handles]⟩)
  have m2 : p.ctx ∈ (Context.dropMgr env a p.memo).own := mem_own.2 (.inr ⟨j, p, hj, by simp [Context.Prov.handles]⟩)
  have f1 : Frame n a (Context.dropMgr env a p.memo) := .dropMgr a (.inr m1)
  have f2 : Frame n (Context.dropMgr env a p.memo) (Context.dropMgr env (Context.dropMgr env a p.memo) p.ctx) := .dropMgr _ (.inr m2)
  refine (f1.trans f2).trans (Frame.provs (ps := a.provs.set j none) ?_)
  intro j' p' hj'
  rcases Context.set_some_cases hj' with ⟨-, e⟩ | ⟨-, e⟩
  · cases e
  · exact .inl ⟨j', e⟩

theorem rerender_frame {env : Env} {o : Bool} {a a' : Context.App} {j mh : Nat} (hi : Inv a.st)
    (he : Context.rerender env o a j mh = some a') : Frame a.st.mgrHandles.length a a' := by
  simp only [Context.rerender] at he
  split at he
  case h_2 => cases he
  rename_i p hj
  split at he
  · cases he
  rename_i a1 memo h1
  have f1 : Frame a.st.mgrHandles.length a a1 := .clone h1
  have i1 := (f1 hi).1
  obtain ⟨e1, e1p, -, e1'⟩ := clone_ge h1
  split at he
  · cases he
    exact f1.trans (.dropMgr a1 (.inl (by omega)))
  split at he
  · cases he
  rename_i a2 h2
  have inown : ∀ b : Context.App, b.provs = a.provs → p.memo ∈ b.own ∧ p.ctx ∈ b.own := by
    intro b hb
    exact ⟨mem_own.2 (.inr ⟨j, p, hb ▸ hj, by simp [Context.Prov.handles]⟩), mem_own.2 (.inr ⟨j, p, hb ▸ hj, by simp [Context.Prov.handles]⟩)⟩
  have opt : ∀ (b : Context.App) (c : Bool), Inv b.st → b.provs = a.provs →
      Frame a.st.mgrHandles.length b (if c then Context.dropMgr env b p.memo else b) ∧
      (if c then Context.dropMgr env b p.memo else b).provs = a.provs ∧
      b.st.mgrHandles.length ≤ (if c then Context.dropMgr env b p.memo else b).st.mgrHandles.length := by
    intro b c hb hp
    cases c with
    | false => exact ⟨.refl _ _, hp, Nat.le_refl _⟩
    | true => exact ⟨.dropMgr b (.inr (inown b hp).1), hp, (Context.dropMgr_ok b p.memo).length hb⟩
  obtain ⟨f1', p1', l1'⟩ := opt a1 o i1 e1p
  have i1' := (f1' i1).1
  have f2 : Frame a.st.mgrHandles.length _ a2 := .load h2
  have i2 := (f2 i1').1
  obtain ⟨e2p, -, e2'⟩ := load_ge i1' h2
  obtain ⟨f2', p2', l2'⟩ := opt a2 (!o) i2 (e2p.trans p1')
  have i2' := (f2' i2).1
  have hsw : (if o = true then a2 else Context.dropMgr env a2 p.memo) = (if (!o) = true then Context.dropMgr env a2 p.memo else a2) := by
    cases o <;> rfl
  rw [hsw] at he
  split at he
  · cases he
  rename_i a3 ctx h3
  cases he
  have f3 : Frame a.st.mgrHandles.length _ a3 := .clone h3
  obtain ⟨e3, e3p, -, e3'⟩ := clone_ge h3
  have f4 : Frame a.st.mgrHandles.length a3 (Context.dropMgr env a3 p.ctx) :=
    .dropMgr _ (.inr (inown a3 (e3p.trans p2')).2)
  refine ((((f1.trans f1').trans f2).trans f2').trans f3).trans (f4.trans
    (Frame.provs (ps := a3.provs.set j (some { data := p.data, memo, ctx })) ?_))
  intro j' p' hj'
  rcases Context.set_some_cases hj' with ⟨-, e⟩ | ⟨-, e⟩
  · cases e; exact .inr ⟨by simp only; omega, by simp only; omega⟩
  · exact .inl ⟨j', e⟩

theorem defaultMgr_frame {env : Env} {a a' : Context.App} {mh : Nat} (hi : Inv a.st)
    (he : Context.defaultMgr env a = some (a', mh)) : Frame a.st.mgrHandles.length a a' ∧ a.st.mgrHandles.length ≤ mh := by
  simp only [Context.defaultMgr] at he
  split at he
  · exact ⟨.clone he, Nat.le_of_eq (clone_ge he).1.symm⟩
  · rename_i hd
    split at he
    case h_2 => cases he
    rename_i s mh0 hs
    have q1 : Quiet env (fun _ => False) a.st s := Quiet.step _ hs (by simp) (by simp)
    have f1 : Frame a.st.mgrHandles.length a { a with st := s } := .quiet q1 (by simp)
    have f2 : Frame a.st.mgrHandles.length { a with st := s, dflt := some mh0 } a' := .clone he
    have hnew : mh0 = a.st.mgrHandles.length := by
      have ht := step_tr env hi (.newMgr (c! "stylist") none true none)
      rw [hs] at ht
      generalize hx : Out.mgr mh0 = out at ht
      cases ht with
      | newMgr => cases hx; rfl
      | _ => cases hx
    have f3 : Frame a.st.mgrHandles.length { a with st := s } { a with st := s, dflt := some mh0 } := by
      refine fun hi => ⟨hi, fun x i hx hm hn => ⟨hm, fun hx' => ?_⟩⟩
      rcases mem_own.1 hx' with hx' | ⟨j, p, hj, hp⟩
      · cases hx'; omega
      · exact hn (mem_own.2 (.inr ⟨j, p, hj, hp⟩))
    refine ⟨(f1.trans f3).trans f2, ?_⟩
    have := (clone_ge he).1
    have h3 := q1.length hi
    simp only at this; omega

theorem contextMgr_frame {env : Env} {a a' : Context.App} {w : Place} {mh : Nat} (hi : Inv a.st)
    (he : Context.contextMgr env a w = some (a', mh)) : Frame a.st.mgrHandles.length a a' ∧ a.st.mgrHandles.length ≤ mh := by
  cases w with
  | outside => exact defaultMgr_frame hi he
  | below j =>
    simp only [Context.contextMgr] at he
    split at he
    case h_2 => cases he
    exact ⟨.clone he, Nat.le_of_eq (clone_ge he).1.symm⟩

theorem useStyle_frame {env : Env} {a a' : Context.App} {w : Place} {src : Source} {fault : Bool} {h : Nat} (hi : Inv a.st)
    (he : Context.useStyle env a w src fault = some (a', h)) : Frame a.st.mgrHandles.length a a' := by
  simp only [Context.useStyle] at he
  split at he
  · cases he
  rename_i a1 mh h1
  obtain ⟨f1, g1⟩ := contextMgr_frame hi h1
  split at he
  case h_2 => cases he
  rename_i s x hs
  cases he
  have q : Quiet env (fun y => y = mh) a1.st (step env (.dropMgr mh) s).1 :=
    (Quiet.step _ hs (by simp) (by simp)).trans (Quiet.step (.dropMgr mh) (out := (step env (.dropMgr mh) s).2) rfl (by simp) (by simp))
  exact f1.trans (.quiet q (fun y e => .inl (e ▸ g1)))

theorem classes_frame {env : Env} {a a' : Context.App} {w : Place} {src : Source} {fault : Bool} {cls : Str} (hi : Inv a.st)
    (he : Context.classes env a w src fault = some (a', cls)) : Frame a.st.mgrHandles.length a a' := by
  simp only [Context.classes] at he
  split at he
  · cases he
  rename_i a1 x h1
  split at he
  · cases he
  cases he
  exact (useStyle_frame hi h1).trans (.quiet (D := fun _ => False)
    (Quiet.step (.drop x) (out := (step env (.drop x) a1.st).2) rfl (by simp) (by simp)) (by simp))

/-- What an event of an application leaves alone. -/
theorem event_frame {env : Env} {o : Bool} {a a' : Context.App} {e : Context.Event} (hi : Inv a.st)
    (he : Context.event env o a e = some a') {x i : Nat} (hx : a.st.mgrOf x = some i) (hn : x ∉ a.own)
    (hd : e ≠ .other (.dropMgr x)) : a'.st.mgrOf x = some i ∧ x ∉ a'.own := by
  have fin : Frame a.st.mgrHandles.length a a' → a'.st.mgrOf x = some i ∧ x ∉ a'.own :=
    fun f => (f hi).2 x i (mgrOf_lt hx) hx hn
  cases e with
  | mount mh data => exact fin (mount_frame hi he)
  | rerender j mh => exact fin (rerender_frame hi he)
  | unmount j => exact fin (unmount_frame he)
  | default =>
    simp only [Context.event, Option.map_eq_some_iff, Prod.exists] at he
    obtain ⟨a1, y, h1, rfl⟩ := he
    exact fin (defaultMgr_frame hi h1).1
  | useStyle w src fault =>
    simp only [Context.event, Option.map_eq_some_iff, Prod.exists] at he
    obtain ⟨a1, y, h1, rfl⟩ := he
    exact fin (useStyle_frame hi h1)
  | classes w src fault =>
    simp only [Context.event, Option.map_eq_some_iff, Prod.exists] at he
    obtain ⟨a1, y, h1, rfl⟩ := he
    exact fin (classes_frame hi h1)
  | other op =>
    simp only [Context.event] at he
    split at he
    · cases he
    cases he
    exact ⟨mgrOf_step hi hx (fun e => hd (by rw [e])), hn⟩

/-! ## Sources -/

/-- What is known, read off the state. -/
def view (a : App) : List (Option (Sheet × Option Nat)) :=
  a.srcs.map (fun o => o.map (fun x => (x.sheet, x.mgr.bind a.base.st.mgrOf)))

/-- All is well. -/
structure Ok (a : App) : Prop where
  base : AppOk a.base
  live : ∀ (k : Nat) (x : Src) (h : Nat), a.srcs[k]? = some (some x) → x.mgr = some h →
    ∃ i, a.base.st.mgrOf h = some i ∧ h ∉ a.base.own
  apart : ∀ (k k' : Nat) (x x' : Src) (h : Nat), a.srcs[k]? = some (some x) → a.srcs[k']? = some (some x') →
    x.mgr = some h → x'.mgr = some h → k = k'

theorem Ok.init (d : Dom) : Ok (App.init d) :=
  ⟨AppOk.init d, by simp [App.init], by simp [App.init]⟩

/-- The application changes and leaves the handles of the sources alone. -/
theorem Ok.frame {a : App} {b : Context.App} (h : Ok a) (hb : AppOk b)
    (hf : ∀ (k : Nat) (x : Src) (mh i : Nat), a.srcs[k]? = some (some x) → x.mgr = some mh → a.base.st.mgrOf mh = some i →
      mh ∉ a.base.own → b.st.mgrOf mh = some i ∧ mh ∉ b.own) :
    Ok { a with base := b } ∧ view { a with base := b } = view a := by
  refine ⟨⟨hb, ?_, h.apart⟩, ?_⟩
  · intro k x mh hk hm
    obtain ⟨i, h1, h2⟩ := h.live k x mh hk hm
    exact ⟨i, hf k x mh i hk hm h1 h2⟩
  · simp only [view]
    refine List.map_congr_left (fun o ho => ?_)
    cases o with
    | none => rfl
    | some x =>
      obtain ⟨k, hk⟩ := List.getElem?_of_mem ho
      simp only [Option.map_some]
      cases hm : x.mgr with
      | none => rfl
      | some mh =>
        obtain ⟨i, h1, h2⟩ := h.live k x mh hk hm
        simp only [Option.bind_some, h1, (hf k x mh i hk hm h1 h2).1]

theorem Ok.gone {a : App} (h : Ok a) (k : Nat) : Ok (a.gone k) ∧ view (a.gone k) = (view a).set k none := by
  refine ⟨⟨h.base, ?_, ?_⟩, ?_⟩
  · intro k' x mh hk hm
    rcases Context.set_some_cases hk with ⟨-, e⟩ | ⟨-, e⟩
    · cases e
    · exact h.live k' x mh e hm
  · intro k1 k2 x x' mh h1 h2
    rcases Context.set_some_cases h1 with ⟨-, e⟩ | ⟨-, e1⟩
    · cases e
    rcases Context.set_some_cases h2 with ⟨-, e⟩ | ⟨-, e2⟩
    · cases e
    exact h.apart k1 k2 x x' mh e1 e2
  · simp [view, App.gone, List.map_set]

theorem Ok.push {a : App} (h : Ok a) {x : Src}
    (hx : ∀ mh, x.mgr = some mh → (∃ i, a.base.st.mgrOf mh = some i ∧ mh ∉ a.base.own) ∧
      ∀ (k : Nat) (y : Src), a.srcs[k]? = some (some y) → y.mgr ≠ some mh) :
    Ok (a.push x) ∧ view (a.push x) = view a ++ [some (x.sheet, x.mgr.bind a.base.st.mgrOf)] := by
  refine ⟨⟨h.base, ?_, ?_⟩, by simp [view, App.push]⟩
  · intro k y mh hk hm
    rcases Context.append_some_cases hk with ⟨-, e⟩ | ⟨-, e⟩
    · cases e; exact (hx mh hm).1
    · exact h.live k y mh e hm
  · intro k1 k2 y y' mh h1 h2 m1 m2
    rcases Context.append_some_cases h1 with ⟨q1, e⟩ | ⟨-, e1⟩
    · cases e
      rcases Context.append_some_cases h2 with ⟨q2, e⟩ | ⟨-, e2⟩
      · omega
      · exact absurd m2 ((hx mh m1).2 k2 y' e2)
    · rcases Context.append_some_cases h2 with ⟨-, e⟩ | ⟨-, e2⟩
      · cases e
        exact absurd m1 ((hx mh m2).2 k1 y e1)
      · exact h.apart k1 k2 y y' mh e1 e2 m1 m2

theorem src_get {a : App} {k : Nat} {x : Src} : a.src k = some x ↔ a.srcs[k]? = some (some x) := by
  simp [App.src, Option.join_eq_some_iff]

theorem view_get {a : App} {k : Nat} {x : Src} (h : a.srcs[k]? = some (some x)) :
    (view a)[k]? = some (some (x.sheet, x.mgr.bind a.base.st.mgrOf)) := by
  simp [view, h]

/-- Operations that drop no handle of a library, of a provider or of another source. -/
theorem Ok.quiet {env : Env} {D : Nat → Prop} {a : App} {s' : St} (h : Ok a) {k : Nat} (hq : Quiet env D a.base.st s')
    (hd : ∀ x ∈ a.base.own, ¬ D x)
    (hd' : ∀ (k' : Nat) (x : Src) (mh : Nat), k' ≠ k → a.srcs[k']? = some (some x) → x.mgr = some mh → ¬ D mh) :
    Ok ({ a with base := { a.base with st := s' } }.gone k) ∧
    view ({ a with base := { a.base with st := s' } }.gone k) = (view a).set k none ∧
    givenOf { a.base with st := s' } = givenOf a.base := by
  obtain ⟨g1, g2⟩ := h.gone k
  obtain ⟨f1, f2⟩ := g1.frame (b := { a.base with st := s' }) (h.base.quiet hq hd) (by
    intro k' x mh i hk hm h1 h2
    rcases Context.set_some_cases hk with ⟨-, e⟩ | ⟨hne, e⟩
    · cases e
    · exact ⟨hq.mgrOf h.base.inv h1 (hd' k' x mh hne e hm), h2⟩)
  exact ⟨f1, f2.trans g2, givenOf_kept h.base hq hd⟩

theorem dropHandle_quiet {env : Env} (s : St) (o : Option Nat) : Quiet env (fun x => o = some x) s (dropHandle env s o) := by
  cases o with
  | none => exact Quiet.refl s
  | some mh => exact Quiet.step (.dropMgr mh) (out := (step env (.dropMgr mh) s).2) rfl (by simp) (by simp)

theorem Quiet.create {env : Env} {mh : Nat} {kind : Kind} {src : Source} {fault : Bool} (s : St) :
    Quiet env (fun _ => False) s (step env (.create mh kind src fault) s).1 :=
  Quiet.step (.create mh kind src fault) (out := (step env (.create mh kind src fault) s).2) rfl (by simp) (by simp)

/-- One event. -/
theorem event_ok {env : Env} {o : Bool} {a a' : App} {e : Event} (h : Ok a) (he : event env o a e = some a') :
    Ok a' ∧ (⟨givenOf a'.base, view a'⟩ : Known) = Known.after ⟨givenOf a.base, view a⟩ a a' e := by
  cases e with
  | app e =>
    simp only [event] at he
    split at he
    · cases he
    rename_i hop
    simp only [Option.map_eq_some_iff] at he
    obtain ⟨b, hb, rfl⟩ := he
    obtain ⟨b1, b2, -⟩ := Context.event_ok h.base hb
    obtain ⟨f1, f2⟩ := h.frame b1 (by
      intro k x mh i hk hm h1 h2
      refine event_frame h.base.inv hb h1 h2 ?_
      rintro rfl
      refine hop (List.any_eq_true.2 ⟨some x, List.mem_of_getElem? hk, ?_⟩)
      simp [hm])
    refine ⟨f1, ?_⟩
    simp only [Known.after, f2, b2]
  | css w sheet =>
    simp only [event, css] at he
    split at he
    · cases he
    rename_i b mh hb
    cases he
    obtain ⟨b1, b2, b3, h0, i, b4, b5, b6, b7⟩ := contextMgr_ok h.base hb
    obtain ⟨fr, fn⟩ := contextMgr_frame h.base.inv hb
    obtain ⟨f1, f2⟩ := h.frame b1.ok (fun k x mh i _ _ h1 h2 => (fr h.base.inv).2 mh i (mgrOf_lt h1) h1 h2)
    obtain ⟨g1, g2⟩ := f1.push (x := { sheet, mgr := some mh }) (by
      rintro _ ⟨⟩
      refine ⟨⟨i, b6, b2⟩, ?_⟩
      intro k y hk hy
      obtain ⟨i', h1, -⟩ := h.live k y mh hk hy
      have := mgrOf_lt h1
      omega)
    refine ⟨g1, ?_⟩
    have hg : givenOf b = givenOf a.base := b1.given
    have hi : managerAt b (givenOf a.base) w = some i := by
      cases w with
      | below j =>
        obtain ⟨p, p1, p2⟩ := b7
        simp [managerAt, givenOf, p1, p2]
      | outside =>
        simp only at b7
        simp [managerAt, b7, b5]
    simp only [Known.after, g2, f2, Option.bind_some, b6]
    simp only [App.push, hg, hi]
  | plain sheet =>
    simp only [event, Option.some.injEq] at he
    subst he
    obtain ⟨g1, g2⟩ := h.push (x := { sheet, mgr := none }) (by simp)
    exact ⟨g1, by simp only [Known.after, g2]; rfl⟩
  | clone k =>
    simp only [event, clone] at he
    split at he
    · cases he
    · rename_i sheet hk
      cases he
      obtain ⟨g1, g2⟩ := h.push (x := { sheet, mgr := none }) (by simp)
      refine ⟨g1, ?_⟩
      have hv := view_get (src_get.1 hk)
      simp only [Known.after, g2, hv]; rfl
    · rename_i sheet mh0 hk
      split at he
      · cases he
      rename_i b mh hb
      cases he
      obtain ⟨i, i1, i2, i3, i4, i5, i6⟩ := cloneMgr_ok hb
      have hok := Context.Ok.of_quiet h.base i5 (by simp)
      rw [← i3] at hok
      have fr : Frame a.base.st.mgrHandles.length a.base b := .clone hb
      obtain ⟨f1, f2⟩ := h.frame hok.ok (fun k x mh i _ _ h1 h2 => (fr h.base.inv).2 mh i (mgrOf_lt h1) h1 h2)
      obtain ⟨g1, g2⟩ := f1.push (x := { sheet, mgr := some mh }) (by
        rintro _ ⟨⟩
        refine ⟨⟨i, i4, ?_⟩, ?_⟩
        · intro hx
          rw [i3] at hx
          have : mh < a.base.st.mgrHandles.length := h.base.own_lt (a := a.base) hx
          omega
        · intro k y hk hy
          obtain ⟨i', h1, -⟩ := h.live k y mh hk hy
          have := mgrOf_lt h1
          omega)
      refine ⟨g1, ?_⟩
      have hv := view_get (src_get.1 hk)
      simp only [Option.bind_some, i1] at hv
      have hg : givenOf b = givenOf a.base := hok.given
      simp only [Known.after, g2, f2, hv, Option.bind_some, i4, Option.join_some]
      simp only [App.push, hg]
  | drop k =>
    simp only [event, drop] at he
    split at he
    · cases he
    rename_i x hk
    cases he
    have hk' := src_get.1 hk
    obtain ⟨g1, g2, g3⟩ := h.quiet (k := k) (dropHandle_quiet (env := env) a.base.st x.mgr)
      (fun y hy e => (h.live k x y hk' e).choose_spec.2 hy) (fun k' x' mh hne hk2 hm e => hne (h.apart k' k x' x mh hk2 hk' hm e))
    refine ⟨g1, ?_⟩
    simp only [Known.after, g2]
    simp only [App.gone, g3]
  | classes k fault =>
    simp only [event, Option.map_eq_some_iff, Prod.exists] at he
    obtain ⟨a1, cls, he, rfl⟩ := he
    simp only [classes] at he
    split at he
    · cases he
    · rename_i sheet hk
      split at he
      · cases he
      rename_i b cls' hb
      cases he
      have hok := Context.classes_ok h.base hb
      have fr := classes_frame h.base.inv hb
      obtain ⟨f1, f2⟩ := h.frame hok.ok (fun k x mh i _ _ h1 h2 => (fr h.base.inv).2 mh i (mgrOf_lt h1) h1 h2)
      obtain ⟨g1, g2⟩ := f1.gone k
      refine ⟨g1, ?_⟩
      have hg : givenOf b = givenOf a.base := hok.given
      simp only [Known.after, g2, f2]
      simp only [App.gone, hg]
    · rename_i sheet mh hk
      split at he
      case h_2 => cases he
      rename_i s st hs
      split at he
      · cases he
      rename_i cls' hc
      cases he
      have hk' := src_get.1 hk
      have q : Quiet env (fun y => some mh = some y) a.base.st (step env (.drop st) (step env (.dropMgr mh) s).1).1 :=
        ((Quiet.step _ hs (by simp) (by simp)).trans (dropHandle_quiet s (some mh))).trans
          (Quiet.step (.drop st) (out := (step env (.drop st) (step env (.dropMgr mh) s).1).2) rfl (by simp) (by simp))
      obtain ⟨g1, g2, g3⟩ := h.quiet (k := k) q
        (fun y hy e => (h.live k _ y hk' e).choose_spec.2 hy) (fun k' x' mh hne hk2 hm e => hne (h.apart k' k x' _ mh hk2 hk' hm e))
      refine ⟨g1, ?_⟩
      simp only [Known.after, g2]
      simp only [App.gone, g3]
  | useStyle w k fault =>
    simp only [event, Option.map_eq_some_iff, Prod.exists] at he
    obtain ⟨a1, st, he, rfl⟩ := he
    simp only [useStyle] at he
    split at he
    · cases he
    rename_i x hk
    split at he
    · cases he
    rename_i b mh hb
    split at he
    case h_2 => cases he
    rename_i s st' hs
    cases he
    have hk' := src_get.1 hk
    obtain ⟨b1, b2, b3, -⟩ := contextMgr_ok h.base hb
    obtain ⟨fr, fn⟩ := contextMgr_frame h.base.inv hb
    obtain ⟨f1, f2⟩ := h.frame b1.ok (fun k x mh i _ _ h1 h2 => (fr h.base.inv).2 mh i (mgrOf_lt h1) h1 h2)
    have q : Quiet env (fun y => x.mgr = some y ∨ mh = y) b.st (step env (.dropMgr mh) s).1 :=
      (((dropHandle_quiet (env := env) b.st x.mgr).mono (fun _ => .inl)).trans (Quiet.step _ hs (by simp) (by simp))).trans
        ((dropHandle_quiet (env := env) s (some mh)).mono (fun _ e => .inr (Option.some.inj e)))
    obtain ⟨g1, g2, g3⟩ := f1.quiet (k := k) q (by
        rintro y hy (e | rfl)
        · exact (f1.live k x y hk' e).choose_spec.2 hy
        · exact b2 hy) (by
        rintro k' x' mh' hne hk2 hm (e | rfl)
        · exact hne (h.apart k' k x' x mh' hk2 hk' hm e)
        · obtain ⟨i', h1, -⟩ := h.live k' x' mh hk2 hm
          have := mgrOf_lt h1
          omega)
    refine ⟨g1, ?_⟩
    have hg : givenOf b = givenOf a.base := b1.given
    simp only [Known.after]
    rw [g2, f2]
    simp only [App.gone, g3, hg]
  | style mh kind k fault =>
    simp only [event, Option.map_eq_some_iff, Prod.exists] at he
    obtain ⟨a1, out, he, rfl⟩ := he
    simp only [style] at he
    split at he
    · cases he
    rename_i x hk
    cases he
    have hk' := src_get.1 hk
    have q : Quiet env (fun y => x.mgr = some y) a.base.st
        (step env (.create mh kind (.sheet x.sheet) fault) (dropHandle env a.base.st x.mgr)).1 :=
      (dropHandle_quiet (env := env) a.base.st x.mgr).trans ((Quiet.create _).mono (fun _ h => h.elim))
    obtain ⟨g1, g2, g3⟩ := h.quiet (k := k) q
      (fun y hy e => (h.live k x y hk' e).choose_spec.2 hy) (fun k' x' mh hne hk2 hm e => hne (h.apart k' k x' x mh hk2 hk' hm e))
    refine ⟨g1, ?_⟩
    simp only [Known.after, g2]
    simp only [App.gone, g3]

/-- A history of events. -/
theorem events_ok {env : Env} {o : Bool} : ∀ (es : List Event) {a a' : App}, Ok a → events env o es a = some a' →
    Ok a' ∧ (⟨givenOf a'.base, view a'⟩ : Known) = known env o es a ⟨givenOf a.base, view a⟩
  | [], a, a', h, he => by
    simp only [events, Option.some.injEq] at he
    subst he
    exact ⟨h, rfl⟩
  | e :: es, a, a', h, he => by
    simp only [events, Option.bind_eq_some_iff] at he
    obtain ⟨a1, he1, he2⟩ := he
    obtain ⟨h1, h2⟩ := event_ok h he1
    obtain ⟨b1, b2⟩ := events_ok es h1 he2
    exact ⟨b1, by rw [b2, known, he1, h2]⟩

theorem events_init {env : Env} {o : Bool} {d : Dom} {es : List Event} {a : App} (h : events env o es (App.init d) = some a) :
    Ok a ∧ givenOf a.base = (knownOf env o d es).given ∧ view a = (knownOf env o d es).written := by
  obtain ⟨h1, h2⟩ := events_ok es (Ok.init d) h
  have : knownOf env o d es = ⟨givenOf a.base, view a⟩ := h2.symm
  exact ⟨h1, by rw [this], by rw [this]⟩

end Sources
