import Verif.Spec.Data
import Verif.Model.Storage

/-!
# Lemmas about storage and serialization
-/

namespace Storage

/-! ## Equality -/

theorem eqSlice_iff {α β : Type} {eq : α → α → Bool} {f : α → β} (h : ∀ a b, eq a b = true ↔ f a = f b) :
    ∀ l l' : List α, eqSlice eq l l' = true ↔ l.map f = l'.map f
  | [], [] => by simp [eqSlice]
  | [], _ :: _ => by simp [eqSlice]
  | _ :: _, [] => by simp [eqSlice]
  | x :: xs, y :: ys => by simp [eqSlice, h, eqSlice_iff h xs ys]

theorem eqFrag_iff (a b : Frag) : eqFrag a b = true ↔ a.inner.val = b.inner.val := by
  simp [eqFrag, eqCow, eqStr]

theorem eqFrags_iff (a b : Cow (List Frag)) : eqCow (eqSlice eqFrag) a b = true ↔ frags a = frags b :=
  eqSlice_iff eqFrag_iff _ _

theorem eqSels_iff (a b : Cow (List Sel)) : eqCow (eqSlice eqSel) a b = true ↔ sels a = sels b :=
  eqSlice_iff (eq := eqSel) (f := fun s : Sel => frags s.fragments) (fun a b => eqFrags_iff a.fragments b.fragments) _ _

mutual
theorem eqRBC_iff : ∀ a b : TRBC, eqRBC a b = true ↔ a.erase = b.erase
  | .attr k v, b => by cases b <;> simp [eqRBC, TRBC.erase, eqCow, eqStr, ← eqFrags_iff]
  | .rule _ c _ b, y => by
    cases y <;> simp only [eqRBC, TRBC.erase, Bool.and_eq_true, eqFrags_iff, eqRBCs_iff b, RBC.rule.injEq,
      Bool.false_eq_true, reduceCtorEq]
  | .block _ c _ b, y => by
    cases y <;> simp only [eqRBC, TRBC.erase, Bool.and_eq_true, eqSels_iff, eqRBCs_iff b, RBC.block.injEq,
      Bool.false_eq_true, reduceCtorEq]
theorem eqRBCs_iff : ∀ a b : List TRBC, eqRBCs a b = true ↔ TRBC.erases a = TRBC.erases b
  | [], [] => by simp [eqRBCs]
  | [], _ :: _ => by simp [eqRBCs, TRBC.erases]
  | _ :: _, [] => by simp [eqRBCs, TRBC.erases]
  | x :: xs, y :: ys => by simp [eqRBCs, TRBC.erases, eqRBC_iff x, eqRBCs_iff xs]
end

theorem eqScope_iff (a b : TScope) : eqScope a b = true ↔ a.erase = b.erase := by
  cases a <;> cases b <;> simp [eqScope, TScope.erase, eqSels_iff, eqFrags_iff, eqRBCs_iff]

theorem eqSheet_iff (a b : TSheet) : eqSheet a b = true ↔ eraseSheet a = eraseSheet b :=
  eqSlice_iff eqScope_iff _ _

theorem eqKey_iff (a b : TKey) : eqKey a b = true ↔ a.erase = b.erase := by
  simp [eqKey, TKey.erase, eqSheet_iff, eqCow, eqStr, and_assoc]

/-! ## Hashing -/

/-- A hash stream of the erased tree. -/
def hFrags (l : List Str) : List Tok := .len l.length :: l.flatMap hashStr

def hSels (l : List Selector) : List Tok := .len l.length :: l.flatMap hFrags

mutual
def hRBC : RBC → List Tok
  | .attr k v => .disc 0 :: hashStr k ++ hFrags v
  | .rule c b => .disc 1 :: hFrags c ++ .len b.length :: hRBCs b
  | .block c b => .disc 2 :: hSels c ++ .len b.length :: hRBCs b
def hRBCs : List RBC → List Tok
  | [] => []
  | x :: xs => hRBC x ++ hRBCs xs
end

def hScope : ScopeContent → List Tok
  | .block c b => .disc 0 :: hSels c ++ .len b.length :: hRBCs b
  | .rule c b => .disc 1 :: hFrags c ++ .len b.length :: hRBCs b

theorem hashFrags_eq (v : Cow (List Frag)) : hashCow (hashSlice hashFrag) v = hFrags (frags v) := by
  simp only [hashCow, hashSlice, hFrags, frags, List.flatMap_map, List.length_map]
  rfl

theorem hashSels_eq (v : Cow (List Sel)) : hashCow (hashSlice hashSel) v = hSels (sels v) := by
  simp only [hashCow, hashSlice, hSels, sels, List.flatMap_map, List.length_map]
  congr 2
  funext s
  exact hashFrags_eq s.fragments

theorem erases_length : ∀ l : List TRBC, (TRBC.erases l).length = l.length
  | [] => rfl
  | _ :: xs => by simp [TRBC.erases, erases_length xs]

mutual
theorem hashRBC_eq : ∀ a : TRBC, hashRBC a = hRBC a.erase
  | .attr k v => by simp [hashRBC, TRBC.erase, hRBC, hashCow, ← hashFrags_eq]
  | .rule _ c _ b => by simp only [hashRBC, TRBC.erase, hRBC, hashFrags_eq, erases_length, hashRBCs_eq b]
  | .block _ c _ b => by simp only [hashRBC, TRBC.erase, hRBC, hashSels_eq, erases_length, hashRBCs_eq b]
theorem hashRBCs_eq : ∀ l : List TRBC, hashRBCs l = hRBCs (TRBC.erases l)
  | [] => rfl
  | x :: xs => by simp [hashRBCs, TRBC.erases, hRBCs, hashRBC_eq x, hashRBCs_eq xs]
end

theorem hashScope_eq (a : TScope) : hashScope a = hScope a.erase := by
  cases a <;> simp only [hashScope, TScope.erase, hScope, hashFrags_eq, hashSels_eq, erases_length, hashRBCs_eq]

theorem hashKey_eq (k : TKey) : hashKey k =
    .bool k.erase.isGlobal :: hashStr k.erase.pref ++ .len k.erase.ast.length :: k.erase.ast.flatMap hScope := by
  simp only [hashKey, TKey.erase, eraseSheet, hashCow, hashSlice, List.length_map, List.flatMap_map]
  congr 3
  funext s
  exact hashScope_eq s

/-! ## Serialization -/

/-- Everything owned. -/
def ownFrags (v : Cow (List Frag)) : Cow (List Frag) := ⟨.owned, v.val.map (fun f => ⟨⟨.owned, f.inner.val⟩⟩)⟩

def ownSels (v : Cow (List Sel)) : Cow (List Sel) := ⟨.owned, v.val.map (fun s => ⟨ownFrags s.fragments⟩)⟩

mutual
def ownRBC : TRBC → TRBC
  | .attr k v => .attr ⟨.owned, k.val⟩ (ownFrags v)
  | .rule _ c _ b => .rule .owned (ownFrags c) .owned (ownRBCs b)
  | .block _ c _ b => .block .owned (ownSels c) .owned (ownRBCs b)
def ownRBCs : List TRBC → List TRBC
  | [] => []
  | x :: xs => ownRBC x :: ownRBCs xs
end

def ownScope : TScope → TScope
  | .block c _ b => .block (ownSels c) .owned (ownRBCs b)
  | .rule c _ b => .rule (ownFrags c) .owned (ownRBCs b)

def ownSheet (s : TSheet) : TSheet := ⟨.owned, s.val.map ownScope⟩

def ownKey (k : TKey) : TKey := ⟨k.isGlobal, ⟨.owned, k.pref.val⟩, ownSheet k.ast⟩

theorem frags_own (v : Cow (List Frag)) : frags (ownFrags v) = frags v := by
  simp [frags, ownFrags, List.map_map, Function.comp_def]

theorem sels_own (v : Cow (List Sel)) : sels (ownSels v) = sels v := by
  simp only [sels, ownSels, List.map_map]
  apply List.map_congr_left
  intro s _
  exact frags_own s.fragments

mutual
theorem erase_own : ∀ a : TRBC, (ownRBC a).erase = a.erase
  | .attr k v => by simp [ownRBC, TRBC.erase, frags_own]
  | .rule _ c _ b => by simp [ownRBC, TRBC.erase, frags_own, erases_own b]
  | .block _ c _ b => by simp [ownRBC, TRBC.erase, sels_own, erases_own b]
theorem erases_own : ∀ l : List TRBC, TRBC.erases (ownRBCs l) = TRBC.erases l
  | [] => rfl
  | x :: xs => by simp [ownRBCs, TRBC.erases, erase_own x, erases_own xs]
end

theorem eraseScope_own (a : TScope) : (ownScope a).erase = a.erase := by
  cases a <;> simp [ownScope, TScope.erase, frags_own, sels_own, erases_own]

theorem eraseSheet_own (s : TSheet) : eraseSheet (ownSheet s) = eraseSheet s := by
  simp only [eraseSheet, ownSheet, List.map_map]
  apply List.map_congr_left
  intro a _
  exact eraseScope_own a

theorem eraseKey_own (k : TKey) : (ownKey k).erase = k.erase := by
  simp [TKey.erase, ownKey, eraseSheet_own]

theorem optAll_map {α β γ : Type} {f : β → Option γ} {g : α → β} {h : α → γ} (hf : ∀ a, f (g a) = some (h a)) :
    ∀ l : List α, optAll f (l.map g) = some (l.map h)
  | [] => rfl
  | x :: xs => by simp [optAll, hf, optAll_map hf xs]

theorem optAll_map_mem {α β γ : Type} {f : β → Option γ} {g : α → β} {h : α → γ} :
    ∀ l : List α, (∀ a ∈ l, f (g a) = some (h a)) → optAll f (l.map g) = some (l.map h)
  | [], _ => rfl
  | x :: xs, hf => by
    simp [optAll, hf x (by simp), optAll_map_mem xs (fun a ha => hf a (List.mem_cons_of_mem _ ha))]

theorem decStr_enc (s : Cow Str) : decStr (encStr s) = some ⟨.owned, s.val⟩ := rfl

theorem optAll_some {α β : Type} {f : α → Option β} : ∀ {l : List α} {ys : List β}, optAll f l = some ys →
    ∀ {P : α → β → Prop}, (∀ x y, x ∈ l → f x = some y → P x y) → ys.length = l.length ∧
      ∀ (i : Nat) x y, l[i]? = some x → ys[i]? = some y → P x y
  | [], ys, h, P, hP => by cases h; simp
  | x :: xs, ys, h, P, hP => by
    simp only [optAll] at h
    split at h
    · rename_i y ys' h1 h2
      cases h
      obtain ⟨h3, h4⟩ := optAll_some h2 (P := P) (fun a b ha => hP a b (List.mem_cons_of_mem _ ha))
      refine ⟨by simp [h3], fun i => ?_⟩
      cases i with
      | zero => simp only [List.getElem?_cons_zero, Option.some.injEq]; rintro _ _ rfl rfl; exact hP _ _ (by simp) h1
      | succ i => simpa using h4 i
    · cases h

theorem optAll_cons {α β : Type} {f : α → Option β} {x : α} {xs : List α} {ys : List β} :
    optAll f (x :: xs) = some ys ↔ ∃ y ys', f x = some y ∧ optAll f xs = some ys' ∧ ys = y :: ys' := by
  simp only [optAll]
  split
  · rename_i y ys' h1 h2
    simp [h1, h2, eq_comm]
  · rename_i h
    simp only [reduceCtorEq, false_iff]
    rintro ⟨y, ys', h1, h2, -⟩
    exact h _ _ h1 h2

theorem says_bool {b : Bool} {v : Value} : Says (.bool b) v ↔ v = .bool b :=
  ⟨fun h => by cases h; rfl, fun h => h ▸ .bool b⟩

theorem says_string {s : Str} {v : Value} : Says (.str s) v ↔ v = .str s :=
  ⟨fun h => by cases h; rfl, fun h => h ▸ .str s⟩

theorem says_seq {ws : List Value} {v : Value} : Says (.seq ws) v ↔ ∃ vs, v = .seq vs ∧ SaysAll ws vs :=
  ⟨fun h => by cases h with | seq h => exact ⟨_, rfl, h⟩, by rintro ⟨vs, rfl, h⟩; exact .seq h⟩

theorem says_variant {n : Str} {w v : Value} : Says (.variant n w) v ↔ ∃ v', v = .variant n v' ∧ Says w v' :=
  ⟨fun h => by cases h with | variant _ h => exact ⟨_, rfl, h⟩, by rintro ⟨v', rfl, h⟩; exact .variant n h⟩

theorem saysAll_nil {vs : List Value} : SaysAll [] vs ↔ vs = [] :=
  ⟨fun h => by cases h; rfl, fun h => h ▸ .nil⟩

theorem saysAll_cons {w : Value} {ws vs : List Value} :
    SaysAll (w :: ws) vs ↔ ∃ v vs', vs = v :: vs' ∧ Says w v ∧ SaysAll ws vs' :=
  ⟨fun h => by cases h with | cons h h' => exact ⟨_, _, rfl, h, h'⟩, by rintro ⟨v, vs', rfl, h, h'⟩; exact .cons h h'⟩

theorem saysAll_length : ∀ {ws vs : List Value}, SaysAll ws vs → vs.length = ws.length
  | _, _, .nil => rfl
  | _, _, .cons _ h => by simp [saysAll_length h]

theorem saysFields_iff (fs : List (Str × Value)) : ∀ (gs : List (Str × Value)), SaysFields gs fs ↔
    ∃ xs, optAll (field fs) (gs.map Prod.fst) = some xs ∧ SaysAll (gs.map Prod.snd) xs
  | [] => ⟨fun _ => ⟨[], rfl, .nil⟩, fun _ => .nil fs⟩
  | (n, w) :: gs => by
    simp only [List.map_cons, optAll_cons, saysAll_cons]
    constructor
    · intro h
      cases h with
      | @cons _ _ v _ _ h1 h2 h3 =>
        obtain ⟨xs, h4, h5⟩ := (saysFields_iff fs gs).1 h3
        exact ⟨v :: xs, ⟨v, xs, by simp [field, h1], h4, rfl⟩, v, xs, rfl, h2, h5⟩
    · rintro ⟨_, ⟨v, xs, h1, h3, rfl⟩, v', xs', h5, h2, h4⟩
      cases h5
      simp only [field] at h1
      split at h1
      · rename_i f hfl
        cases h1
        have : f ∈ fs.filter (fun f => f.1 = n) := by rw [hfl]; simp
        have hn : f.1 = n := by simpa using (List.mem_filter.1 this).2
        exact .cons (by rw [hfl, ← hn]) h2 ((saysFields_iff fs gs).2 ⟨xs, h3, h4⟩)
      · cases h1

/-- The fields that a value must have in order to be read as the struct. -/
theorem says_struct {gs : List (Str × Value)} {v : Value} :
    Says (.struct gs) v ↔ ∃ xs, record (gs.map Prod.fst) v = some xs ∧ SaysAll (gs.map Prod.snd) xs := by
  constructor
  · intro h
    cases h with
    | named h => exact (saysFields_iff _ _).1 h
    | placed h => exact ⟨_, by simp [record, saysAll_length h], h⟩
  · rintro ⟨xs, h1, h2⟩
    cases v with
    | struct fs => exact .named ((saysFields_iff _ _).2 ⟨xs, h1, h2⟩)
    | seq vs =>
      simp only [record] at h1
      split at h1
      · cases h1; exact .placed h2
      · cases h1
    | _ => cases h1

theorem says_struct1 {a : Str} {x v : Value} : Says (.struct [(a, x)]) v ↔ ∃ y, record [a] v = some [y] ∧ Says x y := by
  rw [says_struct]
  simp only [List.map_cons, List.map_nil, saysAll_cons, saysAll_nil]
  exact ⟨by rintro ⟨_, h, y, _, rfl, h1, rfl⟩; exact ⟨y, h, h1⟩, by rintro ⟨y, h, h1⟩; exact ⟨_, h, y, _, rfl, h1, rfl⟩⟩

theorem says_struct2 {a b : Str} {x x' v : Value} :
    Says (.struct [(a, x), (b, x')]) v ↔ ∃ y y', record [a, b] v = some [y, y'] ∧ Says x y ∧ Says x' y' := by
  rw [says_struct]
  simp only [List.map_cons, List.map_nil, saysAll_cons, saysAll_nil]
  exact ⟨by rintro ⟨_, h, y, _, rfl, h1, y', _, rfl, h2, rfl⟩; exact ⟨y, y', h, h1, h2⟩,
    by rintro ⟨y, y', h, h1, h2⟩; exact ⟨_, h, y, _, rfl, h1, y', _, rfl, h2, rfl⟩⟩

theorem says_struct3 {a b c : Str} {x x' x'' v : Value} : Says (.struct [(a, x), (b, x'), (c, x'')]) v ↔
    ∃ y y' y'', record [a, b, c] v = some [y, y', y''] ∧ Says x y ∧ Says x' y' ∧ Says x'' y'' := by
  rw [says_struct]
  simp only [List.map_cons, List.map_nil, saysAll_cons, saysAll_nil]
  exact ⟨by rintro ⟨_, h, y, _, rfl, h1, y', _, rfl, h2, y'', _, rfl, h3, rfl⟩; exact ⟨y, y', y'', h, h1, h2, h3⟩,
    by rintro ⟨y, y', y'', h, h1, h2, h3⟩; exact ⟨_, h, y, _, rfl, h1, y', _, rfl, h2, y'', _, rfl, h3, rfl⟩⟩

/-! ### What is read is what the value says -/

theorem says_seq_of_optAll {β : Type} {g : β → Value} {f : Value → Option β} : ∀ {vs : List Value} {ys : List β},
    optAll f vs = some ys → (∀ v y, f v = some y → Says (g y) v) → SaysAll (ys.map g) vs
  | [], ys, h, _ => by cases h; exact .nil
  | v :: vs, ys, h, hs => by
    obtain ⟨y, ys', h1, h2, rfl⟩ := optAll_cons.1 h
    exact .cons (hs v y h1) (says_seq_of_optAll h2 hs)

theorem says_str {v : Value} {s : Cow Str} (h : decStr v = some s) : Says (encStr s) v := by
  cases v <;> simp only [decStr, Option.some.injEq, reduceCtorEq] at h
  subst h
  exact .str _

theorem says_frag {v : Value} {f : Frag} (h : decFrag v = some f) : Says (encFrag f) v := by
  simp only [decFrag] at h
  split at h
  · rename_i x hr
    obtain ⟨s, h1, rfl⟩ := Option.map_eq_some_iff.1 h
    exact says_struct1.2 ⟨x, hr, says_str h1⟩
  · cases h

theorem says_frags {v : Value} {f : Cow (List Frag)} (h : decFrags v = some f) : Says (encFrags f) v := by
  cases v <;> simp only [decFrags, Option.map_eq_some_iff, reduceCtorEq] at h
  obtain ⟨fs, h1, rfl⟩ := h
  exact .seq (says_seq_of_optAll h1 (fun _ _ => says_frag))

theorem says_sel {v : Value} {f : Sel} (h : decSel v = some f) : Says (encSel f) v := by
  simp only [decSel] at h
  split at h
  · rename_i x hr
    obtain ⟨s, h1, rfl⟩ := Option.map_eq_some_iff.1 h
    exact says_struct1.2 ⟨x, hr, says_frags h1⟩
  · cases h

theorem says_sels {v : Value} {f : Cow (List Sel)} (h : decSels v = some f) : Says (encSels f) v := by
  cases v <;> simp only [decSels, Option.map_eq_some_iff, reduceCtorEq] at h
  obtain ⟨fs, h1, rfl⟩ := h
  exact .seq (says_seq_of_optAll h1 (fun _ _ => says_sel))

theorem encRBCs_map : ∀ l : List TRBC, encRBCs l = l.map encRBC
  | [] => rfl
  | x :: xs => by simp [encRBCs, encRBCs_map xs]

theorem says_rbc : ∀ (n : Nat) {v : Value} {a : TRBC}, decRBC n v = some a → Says (encRBC a) v
  | 0, v, a, h => by cases h
  | n + 1, v, a, h => by
    cases v <;> simp only [decRBC, reduceCtorEq] at h
    rename_i name v
    split at h
    · rename_i hn
      split at h
      · rename_i k x hr
        split at h
        · rename_i k' x' h1 h2
          cases h
          exact hn ▸ .variant _ (says_struct2.2 ⟨k, x, hr, says_str h1, says_frags h2⟩)
        · cases h
      · cases h
    split at h
    · rename_i hn
      split at h
      · rename_i c vs hr
        split at h
        · rename_i c' b h1 h2
          cases h
          refine hn ▸ .variant _ (says_struct2.2 ⟨c, .seq vs, hr, says_frags h1, .seq ?_⟩)
          rw [encRBCs_map]
          exact says_seq_of_optAll h2 (fun _ _ => says_rbc n)
        · cases h
      · cases h
    split at h
    · rename_i hn
      split at h
      · rename_i c vs hr
        split at h
        · rename_i c' b h1 h2
          cases h
          refine hn ▸ .variant _ (says_struct2.2 ⟨c, .seq vs, hr, says_sels h1, .seq ?_⟩)
          rw [encRBCs_map]
          exact says_seq_of_optAll h2 (fun _ _ => says_rbc n)
        · cases h
      · cases h
    · cases h

theorem says_scope {n : Nat} {v : Value} {a : TScope} (h : decScope n v = some a) : Says (encScope a) v := by
  cases v <;> simp only [decScope, reduceCtorEq] at h
  rename_i name v
  split at h
  · rename_i hn
    split at h
    · rename_i c vs hr
      split at h
      · rename_i c' b h1 h2
        cases h
        refine hn ▸ .variant _ (says_struct2.2 ⟨c, .seq vs, hr, says_sels h1, .seq ?_⟩)
        rw [encRBCs_map]
        exact says_seq_of_optAll h2 (fun _ _ => says_rbc n)
      · cases h
    · cases h
  split at h
  · rename_i hn
    split at h
    · rename_i c vs hr
      split at h
      · rename_i c' b h1 h2
        cases h
        refine hn ▸ .variant _ (says_struct2.2 ⟨c, .seq vs, hr, says_frags h1, .seq ?_⟩)
        rw [encRBCs_map]
        exact says_seq_of_optAll h2 (fun _ _ => says_rbc n)
      · cases h
    · cases h
  · cases h

theorem says_sheet {n : Nat} {v : Value} {a : TSheet} (h : decSheet n v = some a) : Says (encSheet a) v := by
  cases v <;> simp only [decSheet, Option.map_eq_some_iff, reduceCtorEq] at h
  obtain ⟨fs, h1, rfl⟩ := h
  exact .seq (says_seq_of_optAll h1 (fun _ _ => says_scope))

theorem says_key {n : Nat} {v : Value} {k : TKey} (h : decKey n v = some k) : Says (encKey k) v := by
  simp only [decKey] at h
  split at h
  · rename_i g p a hr
    split at h
    · rename_i p' a' h1 h2
      cases h
      exact says_struct3.2 ⟨.bool g, p, a, hr, .bool g, says_str h1, says_sheet h2⟩
    · cases h
  · cases h

theorem says_entry {n : Nat} {v : Value} {e : TEntry} (h : decEntry n v = some e) : Says (encEntry e) v := by
  simp only [decEntry] at h
  split at h
  · rename_i k id hr
    obtain ⟨s, h1, rfl⟩ := Option.map_eq_some_iff.1 h
    exact says_struct2.2 ⟨k, .str id, hr, says_key h1, .str id⟩
  · cases h

theorem says_data {v : Value} {d : List TEntry} (h : decode v = some d) : Says (encData d) v := by
  cases v <;> simp only [decode, reduceCtorEq] at h
  exact .seq (says_seq_of_optAll h (fun _ _ => says_entry))

/-! ### What a value says is read -/

theorem depth_le_depths : ∀ {l : List Value} {v : Value}, v ∈ l → v.depth ≤ Value.depths l
  | x :: xs, v, h => by
    simp only [Value.depths]
    rcases List.mem_cons.1 h with rfl | h
    · omega
    · have := depth_le_depths h; omega

theorem depth_le_depthf : ∀ {l : List (Str × Value)} {f : Str × Value}, f ∈ l → f.2.depth ≤ Value.depthf l
  | (n, x) :: xs, f, h => by
    simp only [Value.depthf]
    rcases List.mem_cons.1 h with rfl | h
    · simp only; omega
    · have := depth_le_depthf h; omega

/-- What is found in a struct is less deeply nested. -/
theorem record_depth {names : List Str} {v : Value} {xs : List Value} (h : record names v = some xs) :
    ∀ x ∈ xs, x.depth < v.depth := by
  intro x hx
  cases v with
  | struct fs =>
    simp only [record] at h
    obtain ⟨h1, h2⟩ := optAll_some h (P := fun n y => ∃ f ∈ fs, f.2 = y) (by
      intro n y _ hy
      simp only [field] at hy
      split at hy
      · rename_i f hf
        cases hy
        exact ⟨f, (List.mem_filter.1 (hf ▸ List.mem_singleton_self f)).1, rfl⟩
      · cases hy)
    obtain ⟨i, hi⟩ := List.getElem?_of_mem hx
    have hlt := (List.getElem?_eq_some_iff.1 hi).1
    obtain ⟨f, hf, rfl⟩ := h2 i _ x (List.getElem?_eq_getElem (h1 ▸ hlt)) hi
    have := depth_le_depthf hf
    simp only [Value.depth]; omega
  | seq vs =>
    simp only [record] at h
    split at h
    · cases h
      have := depth_le_depths hx
      simp only [Value.depth]; omega
    · cases h
  | _ => cases h

theorem optAll_says {α β : Type} {g : α → Value} {f : Value → Option β} {own : α → β} : ∀ {ys : List α} {vs : List Value},
    SaysAll (ys.map g) vs → (∀ y ∈ ys, ∀ v ∈ vs, Says (g y) v → f v = some (own y)) → optAll f vs = some (ys.map own)
  | [], vs, h, _ => by cases h; rfl
  | y :: ys, vs, h, hf => by
    obtain ⟨v, vs, rfl, h1, h2⟩ := saysAll_cons.1 h
    refine optAll_cons.2 ⟨own y, ys.map own, hf y (by simp) v (by simp) h1, optAll_says h2 ?_, rfl⟩
    exact fun y hy v hv => hf y (List.mem_cons_of_mem _ hy) v (List.mem_cons_of_mem _ hv)

theorem dec_str {v : Value} {s : Cow Str} (h : Says (encStr s) v) : decStr v = some ⟨.owned, s.val⟩ := by
  cases says_string.1 h; rfl

theorem dec_frag {v : Value} {f : Frag} (h : Says (encFrag f) v) : decFrag v = some ⟨⟨.owned, f.inner.val⟩⟩ := by
  obtain ⟨x, hr, h1⟩ := says_struct1.1 h
  simp only [decFrag, hr, dec_str h1, Option.map_some]

theorem dec_frags {v : Value} {f : Cow (List Frag)} (h : Says (encFrags f) v) : decFrags v = some (ownFrags f) := by
  obtain ⟨vs, rfl, h1⟩ := says_seq.1 h
  simp only [decFrags, optAll_says h1 (fun _ _ _ _ => dec_frag), Option.map_some, ownFrags]

theorem dec_sel {v : Value} {f : Sel} (h : Says (encSel f) v) : decSel v = some ⟨ownFrags f.fragments⟩ := by
  obtain ⟨x, hr, h1⟩ := says_struct1.1 h
  simp only [decSel, hr, dec_frags h1, Option.map_some]

theorem dec_sels {v : Value} {f : Cow (List Sel)} (h : Says (encSels f) v) : decSels v = some (ownSels f) := by
  obtain ⟨vs, rfl, h1⟩ := says_seq.1 h
  simp only [decSels, optAll_says h1 (fun _ _ _ _ => dec_sel), Option.map_some, ownSels]

theorem ownRBCs_map : ∀ l : List TRBC, ownRBCs l = l.map ownRBC
  | [] => rfl
  | x :: xs => by simp [ownRBCs, ownRBCs_map xs]

theorem dec_rbc : ∀ (n : Nat) {v : Value} {a : TRBC}, Says (encRBC a) v → v.depth ≤ n → decRBC n v = some (ownRBC a)
  | n, v, .attr k x, h, hn => by
    obtain ⟨v, rfl, h'⟩ := says_variant.1 h
    obtain ⟨y, z, hr, h1, h2⟩ := says_struct2.1 h'
    cases n with
    | zero => simp [Value.depth] at hn
    | succ n => simp only [decRBC, hr, dec_str h1, dec_frags h2, ownRBC, if_true]
  | n, v, .rule _ c _ b, h, hn => by
    obtain ⟨v, rfl, h'⟩ := says_variant.1 h
    obtain ⟨y, z, hr, h1, h2⟩ := says_struct2.1 h'
    obtain ⟨vs, rfl, h3⟩ := says_seq.1 h2
    have hd := record_depth hr (.seq vs) (by simp)
    rw [encRBCs_map] at h3
    cases n with
    | zero => simp [Value.depth] at hn
    | succ n =>
      simp only [Value.depth] at hn hd
      have h3 := optAll_says (f := decRBC n) (own := ownRBC) h3 (fun y _ v hv hs => dec_rbc n hs (by
        have := depth_le_depths hv; omega))
      simp only [decRBC, hr, dec_frags h1, h3, ownRBC, ownRBCs_map]
      rw [if_neg (by decide), if_pos (by decide)]
  | n, v, .block _ c _ b, h, hn => by
    obtain ⟨v, rfl, h'⟩ := says_variant.1 h
    obtain ⟨y, z, hr, h1, h2⟩ := says_struct2.1 h'
    obtain ⟨vs, rfl, h3⟩ := says_seq.1 h2
    have hd := record_depth hr (.seq vs) (by simp)
    rw [encRBCs_map] at h3
    cases n with
    | zero => simp [Value.depth] at hn
    | succ n =>
      simp only [Value.depth] at hn hd
      have h3 := optAll_says (f := decRBC n) (own := ownRBC) h3 (fun y _ v hv hs => dec_rbc n hs (by
        have := depth_le_depths hv; omega))
      simp only [decRBC, hr, dec_sels h1, h3, ownRBC, ownRBCs_map]
      rw [if_neg (by decide), if_neg (by decide), if_pos (by decide)]

theorem dec_scope {n : Nat} {v : Value} {a : TScope} (h : Says (encScope a) v) (hn : v.depth ≤ n) :
    decScope n v = some (ownScope a) := by
  cases a with
  | block c l b =>
    obtain ⟨v, rfl, h'⟩ := says_variant.1 h
    obtain ⟨y, z, hr, h1, h2⟩ := says_struct2.1 h'
    obtain ⟨vs, rfl, h3⟩ := says_seq.1 h2
    have hd := record_depth hr (.seq vs) (by simp)
    rw [encRBCs_map] at h3
    simp only [Value.depth] at hn hd
    have h3 := optAll_says (f := decRBC n) (own := ownRBC) h3 (fun y _ v hv hs => dec_rbc n hs (by
      have := depth_le_depths hv; omega))
    simp only [decScope, hr, dec_sels h1, h3, ownScope, ownRBCs_map, if_true]
  | rule c l b =>
    obtain ⟨v, rfl, h'⟩ := says_variant.1 h
    obtain ⟨y, z, hr, h1, h2⟩ := says_struct2.1 h'
    obtain ⟨vs, rfl, h3⟩ := says_seq.1 h2
    have hd := record_depth hr (.seq vs) (by simp)
    rw [encRBCs_map] at h3
    simp only [Value.depth] at hn hd
    have h3 := optAll_says (f := decRBC n) (own := ownRBC) h3 (fun y _ v hv hs => dec_rbc n hs (by
      have := depth_le_depths hv; omega))
    simp only [decScope, hr, dec_frags h1, h3, ownScope, ownRBCs_map]
    rw [if_neg (by decide), if_pos (by decide)]

theorem dec_sheet {n : Nat} {v : Value} {a : TSheet} (h : Says (encSheet a) v) (hn : v.depth ≤ n) :
    decSheet n v = some (ownSheet a) := by
  obtain ⟨vs, rfl, h1⟩ := says_seq.1 h
  simp only [Value.depth] at hn
  have h2 := optAll_says (f := decScope n) (own := ownScope) h1 (fun y _ v hv hs => dec_scope hs (by
    have := depth_le_depths hv; omega))
  simp only [decSheet, h2, Option.map_some, ownSheet]

theorem dec_key {n : Nat} {v : Value} {k : TKey} (h : Says (encKey k) v) (hn : v.depth ≤ n) :
    decKey n v = some (ownKey k) := by
  obtain ⟨g, p, a, hr, h1, h2, h3⟩ := says_struct3.1 h
  have hd := record_depth hr a (by simp)
  cases says_bool.1 h1
  simp only [decKey, hr, dec_str h2, dec_sheet h3 (by omega : a.depth ≤ n), ownKey]

theorem dec_entry {n : Nat} {v : Value} {e : TEntry} (h : Says (encEntry e) v) (hn : v.depth ≤ n) :
    decEntry n v = some ⟨ownKey e.key, e.id, []⟩ := by
  obtain ⟨k, i, hr, h1, h2⟩ := says_struct2.1 h
  have hd := record_depth hr k (by simp)
  cases says_string.1 h2
  simp only [decEntry, hr, dec_key h1 (by omega : k.depth ≤ n), Option.map_some]

theorem dec_data {v : Value} {d : List TEntry} (h : Says (encData d) v) :
    decode v = some (d.map (fun e => ⟨ownKey e.key, e.id, []⟩)) := by
  obtain ⟨vs, rfl, h1⟩ := says_seq.1 h
  simp only [decode]
  exact optAll_says h1 (fun y _ v hv hs => dec_entry hs (by
    have := depth_le_depths hv; simp only [Value.depth]; omega))

/-! ### Data says itself -/

theorem saysAll_self : ∀ (vs : List Value), (∀ v ∈ vs, Says v v) → SaysAll vs vs
  | [], _ => .nil
  | v :: vs, h => .cons (h v (by simp)) (saysAll_self vs (fun v hv => h v (List.mem_cons_of_mem _ hv)))

theorem self1 {a : Str} {v : Value} (h : Says v v) : Says (.struct [(a, v)]) (.struct [(a, v)]) :=
  says_struct1.2 ⟨v, by simp [record, optAll, field], h⟩

theorem self2 {a b : Str} {v w : Value} (hab : a ≠ b) (h : Says v v) (h' : Says w w) :
    Says (.struct [(a, v), (b, w)]) (.struct [(a, v), (b, w)]) :=
  says_struct2.2 ⟨v, w, by simp [record, optAll, field, hab, Ne.symm hab], h, h'⟩

theorem self_map {α : Type} {g : α → Value} (l : List α) (h : ∀ a ∈ l, Says (g a) (g a)) :
    Says (.seq (l.map g)) (.seq (l.map g)) :=
  .seq (saysAll_self _ (by intro v hv; obtain ⟨a, ha, rfl⟩ := List.mem_map.1 hv; exact h a ha))

theorem self_frag (f : Frag) : Says (encFrag f) (encFrag f) := self1 (.str _)

theorem self_frags (f : Cow (List Frag)) : Says (encFrags f) (encFrags f) := self_map _ (fun f _ => self_frag f)

theorem self_sel (f : Sel) : Says (encSel f) (encSel f) := self1 (self_frags _)

theorem self_sels (f : Cow (List Sel)) : Says (encSels f) (encSels f) := self_map _ (fun f _ => self_sel f)

mutual
theorem self_rbc : ∀ a : TRBC, Says (encRBC a) (encRBC a)
  | .attr k v => Says.variant _ (self2 (by decide) (.str _) (self_frags v))
  | .rule _ c _ b => Says.variant _ (self2 (by decide) (self_frags c) (.seq (self_rbcs b)))
  | .block _ c _ b => Says.variant _ (self2 (by decide) (self_sels c) (.seq (self_rbcs b)))
theorem self_rbcs : ∀ l : List TRBC, SaysAll (encRBCs l) (encRBCs l)
  | [] => .nil
  | x :: xs => .cons (self_rbc x) (self_rbcs xs)
end

theorem self_scope (a : TScope) : Says (encScope a) (encScope a) := by
  cases a with
  | block c l b => exact Says.variant _ (self2 (by decide) (self_sels c) (.seq (self_rbcs b)))
  | rule c l b => exact Says.variant _ (self2 (by decide) (self_frags c) (.seq (self_rbcs b)))

theorem self_sheet (s : TSheet) : Says (encSheet s) (encSheet s) := self_map _ (fun a _ => self_scope a)

theorem self_key (k : TKey) : Says (encKey k) (encKey k) :=
  says_struct3.2 ⟨.bool k.isGlobal, encStr k.pref, encSheet k.ast, rfl, .bool _, .str _, self_sheet _⟩

theorem self_entry (e : TEntry) : Says (encEntry e) (encEntry e) := self2 (by decide) (self_key _) (.str _)

theorem decode_enc (d : List TEntry) : decode (encData d) = some (d.map (fun e => ⟨ownKey e.key, e.id, []⟩)) :=
  dec_data (self_map _ (fun e _ => self_entry e))

end Storage
