import Verif.Model.Compact
import Verif.Proofs.Storage

/-!
# The compact format
-/

namespace Compact

open Storage

/-- `get` reads what `put` writes, as `f` of it. -/
def Reads {α β : Type} (limit : Nat) (put : α → Bytes) (get : Reader β) (f : α → β) (a : α) : Prop :=
  (put a).length < limit → ∀ rest, get (put a ++ rest) = some (f a, rest)

/-- `get` reads nothing but what `put` writes. -/
def Only {β : Type} (put : β → Bytes) (get : Reader β) : Prop :=
  ∀ b x rest, get b = some (x, rest) → b = put x ++ rest

theorem le_length : ∀ k n, (le k n).length = k
  | 0, _ => rfl
  | k + 1, n => by simp [le, le_length k]

theorem ofLe_le : ∀ k n, n < 256 ^ k → ofLe (le k n) = n
  | 0, n, h => by simp at h; simp [le, ofLe, h]
  | k + 1, n, h => by
    have h1 : n / 256 < 256 ^ k := by
      rw [Nat.div_lt_iff_lt_mul (by omega)]
      rwa [Nat.pow_succ] at h
    simp only [le, ofLe, ofLe_le k _ h1]
    simp
    omega

theorem le_ofLe : ∀ (b : Bytes), le b.length (ofLe b) = b
  | [] => rfl
  | x :: b => by
    have hx := x.toNat_lt
    have h1 : (x.toNat + 256 * ofLe b) / 256 = ofLe b := by omega
    simp only [List.length_cons, ofLe, le, h1, le_ofLe b, List.cons.injEq, and_true]
    apply UInt8.toNat_inj.1
    simp

theorem ofLe_lt : ∀ (b : Bytes), ofLe b < 256 ^ b.length
  | [] => by simp [ofLe]
  | x :: b => by
    have hx := x.toNat_lt
    have := ofLe_lt b
    simp only [ofLe, List.length_cons, Nat.pow_succ]
    omega

theorem take_append (x rest : Bytes) : take x.length (x ++ rest) = some (x, rest) := by
  simp [take]

theorem take_only {k : Nat} {b x rest : Bytes} (h : take k b = some (x, rest)) : b = x ++ rest ∧ x.length = k := by
  simp only [take] at h
  split at h
  · cases h
    exact ⟨(List.take_append_drop k b).symm, by simp; omega⟩
  · cases h

theorem getNum_le (k n : Nat) (h : n < 256 ^ k) (rest : Bytes) : getNum k (le k n ++ rest) = some (n, rest) := by
  have := take_append (le k n) rest
  rw [le_length] at this
  simp only [getNum, this, ofLe_le k n h]

theorem getNum_only {k n : Nat} {b rest : Bytes} (h : getNum k b = some (n, rest)) :
    b = le k n ++ rest ∧ n < 256 ^ k := by
  simp only [getNum] at h
  split at h
  · rename_i x b' hx
    cases h
    obtain ⟨h1, rfl⟩ := take_only hx
    rw [le_ofLe]
    exact ⟨h1, ofLe_lt x⟩
  · cases h

theorem getLen_le {limit n : Nat} (hl : limit ≤ 2 ^ 64) (h : n < limit) (rest : Bytes) :
    getLen limit (le 8 n ++ rest) = some (n, rest) := by
  have h1 : n < 256 ^ 8 := by
    have : (256 : Nat) ^ 8 = 2 ^ 64 := by decide
    omega
  simp only [getLen, getNum_le 8 n h1, h, if_true]

theorem getLen_only {limit n : Nat} {b rest : Bytes} (h : getLen limit b = some (n, rest)) :
    b = le 8 n ++ rest := by
  simp only [getLen] at h
  split at h
  · rename_i m b' hm
    split at h
    · cases h
      exact (getNum_only hm).1
    · cases h
  · cases h

theorem utf8_toByteArray (s : Str) : (utf8 s).toByteArray = s.utf8Encode := rfl

theorem reads_str {limit : Nat} (hl : limit ≤ 2 ^ 64) (s : Str) : Reads limit putStr (getStr limit) id s := by
  intro h rest
  simp only [putStr, List.length_append, le_length] at h
  simp only [putStr, getStr, List.append_assoc, getLen_le hl (show (utf8 s).length < limit by omega), take_append,
    utf8_toByteArray, List.utf8Decode?_utf8Encode, id]

theorem toByteArray_inj {a b : Bytes} (h : a.toByteArray = b.toByteArray) : a = b := by
  have := congrArg (fun x => x.data.toList) h
  simpa using this

theorem only_str (limit : Nat) : Only putStr (getStr limit) := by
  intro b x rest h
  simp only [getStr] at h
  split at h
  · cases h
  · rename_i n b1 h1
    split at h
    · cases h
    · rename_i y b2 h2
      split at h
      · cases h
      · rename_i s h3
        cases h
        obtain ⟨rfl, h5⟩ := take_only h2
        have h6 := getLen_only h1
        have h7 : y.toByteArray = s.toList.utf8Encode := by
          have hs : y.toByteArray.utf8Decode?.isSome := by rw [h3]; rfl
          have := ByteArray.utf8Encode_get_utf8Decode? (b := y.toByteArray) (h := hs)
          rw [← this]
          simp [h3]
        have h8 : y = utf8 s.toList := toByteArray_inj h7
        rw [h6, putStr, ← h8, h5, List.append_assoc]

theorem reads_bool (limit : Nat) (b : Bool) : Reads limit putBool getBool id b := by
  intro _ rest
  cases b <;> rfl

theorem only_bool : Only putBool getBool := by
  intro b x rest h
  match b, h with
  | y :: b, h =>
    simp only [getBool] at h
    split at h
    · rename_i hy; cases h; subst hy; rfl
    · split at h
      · rename_i hy; cases h; subst hy; rfl
      · cases h

theorem reads_map {α β γ : Type} {limit : Nat} {put : α → Bytes} {get : Reader β} {f : α → β} {a : α}
    (h : Reads limit put get f a) (g : β → γ) : Reads limit put (mapR g get) (fun a => g (f a)) a := by
  intro hl rest
  simp only [mapR, h hl, Option.map_some]

theorem only_map {β γ : Type} {put : β → Bytes} {get : Reader β} (h : Only put get) (g : β → γ) {put' : γ → Bytes}
    (hp : ∀ x, put' (g x) = put x) : Only put' (mapR g get) := by
  intro b y rest hy
  simp only [mapR, Option.map_eq_some_iff, Prod.mk.injEq, Prod.exists] at hy
  obtain ⟨x, r, h1, rfl, rfl⟩ := hy
  rw [hp]
  exact h _ _ _ h1

theorem reads_both {α α' β β' : Type} {limit : Nat} {p : α → Bytes} {q : α' → Bytes} {get : Reader β} {get' : Reader β'}
    {f : α → β} {f' : α' → β'} {a : α} {a' : α'} (h : Reads limit p get f a) (h' : Reads limit q get' f' a')
    (hl : (p a ++ q a').length < limit) (rest : Bytes) :
    both get get' ((p a ++ q a') ++ rest) = some ((f a, f' a'), rest) := by
  rw [List.length_append] at hl
  simp only [both, List.append_assoc, h (by omega), h' (by omega)]

theorem only_both {β β' : Type} {p : β → Bytes} {q : β' → Bytes} {get : Reader β} {get' : Reader β'}
    (h : Only p get) (h' : Only q get') : Only (fun x => p x.1 ++ q x.2) (both get get') := by
  intro b x rest hx
  simp only [both] at hx
  split at hx
  · cases hx
  · rename_i y b1 h1
    split at hx
    · cases hx
    · rename_i z b2 h2
      cases hx
      rw [h _ _ _ h1, h' _ _ _ h2, List.append_assoc]

theorem reads_many {α β : Type} {limit : Nat} {put : α → Bytes} {get : Reader β} {f : α → β} : ∀ {l : List α},
    (∀ a ∈ l, Reads limit put get f a) → (l.flatMap put).length < limit → ∀ rest,
    getMany get l.length (l.flatMap put ++ rest) = some (l.map f, rest)
  | [], _, _, _ => rfl
  | a :: l, h, hl, rest => by
    simp only [List.flatMap_cons, List.length_append] at hl
    have h1 := h a (by simp) (by omega) (l.flatMap put ++ rest)
    have h2 := reads_many (fun x hx => h x (List.mem_cons_of_mem _ hx)) (show (l.flatMap put).length < limit by omega) rest
    simp only [List.flatMap_cons, List.length_cons, getMany, List.append_assoc, h1, h2, List.map_cons]

theorem flatMap_length {α : Type} {put : α → Bytes} (hp : ∀ a, put a ≠ []) : ∀ l : List α,
    l.length ≤ (l.flatMap put).length
  | [] => by simp
  | a :: l => by
    have := flatMap_length hp l
    have := List.length_pos_iff.2 (hp a)
    simp only [List.flatMap_cons, List.length_append, List.length_cons]
    omega

theorem reads_seq {α β : Type} {limit : Nat} (hl : limit ≤ 2 ^ 64) {put : α → Bytes} {get : Reader β} {f : α → β}
    (hp : ∀ a, put a ≠ []) {l : List α} (h : ∀ a ∈ l, Reads limit put get f a) :
    Reads limit (putSeq put) (getSeq limit get) (List.map f) l := by
  intro hlen rest
  simp only [putSeq, List.length_append, le_length] at hlen
  have := flatMap_length hp l
  simp only [putSeq, getSeq, List.append_assoc, getLen_le hl (show l.length < limit by omega)]
  exact reads_many h (by omega) rest

theorem only_many {β : Type} {put : β → Bytes} {get : Reader β} (h : Only put get) : ∀ (n : Nat) (b : Bytes) (xs : List β)
    (rest : Bytes), getMany get n b = some (xs, rest) → b = xs.flatMap put ++ rest ∧ xs.length = n
  | 0, b, xs, rest, hx => by cases hx; exact ⟨rfl, rfl⟩
  | n + 1, b, xs, rest, hx => by
    simp only [getMany] at hx
    split at hx
    · cases hx
    · rename_i y b1 h1
      split at hx
      · cases hx
      · rename_i ys b2 h2
        cases hx
        obtain ⟨h3, h4⟩ := only_many h n _ _ _ h2
        rw [h _ _ _ h1, h3]
        simp [h4]

theorem only_seq {β : Type} {put : β → Bytes} {get : Reader β} (limit : Nat) (h : Only put get) :
    Only (putSeq put) (getSeq limit get) := by
  intro b x rest hx
  simp only [getSeq] at hx
  split at hx
  · cases hx
  · rename_i n b1 h1
    obtain ⟨h2, h3⟩ := only_many h _ _ _ _ hx
    rw [getLen_only h1, h2, putSeq, h3, List.append_assoc]

theorem putStr_ne (s : Str) : putStr s ≠ [] := by simp [putStr, le]

theorem putSeq_ne {α : Type} (put : α → Bytes) (l : List α) : putSeq put l ≠ [] := by simp [putSeq, le]

/-! ## The types -/

/-- Owned. -/
def ownFrag (f : Frag) : Frag := ⟨⟨.owned, f.inner.val⟩⟩

/-- Owned. -/
def ownSel (s : Sel) : Sel := ⟨ownFrags s.fragments⟩

theorem reads_frag {limit : Nat} (hl : limit ≤ 2 ^ 64) (f : Frag) : Reads limit putFrag (getFrag limit) ownFrag f := by
  intro hlen rest
  have := reads_str hl f.inner.val hlen rest
  simp only [getFrag, mapR, putFrag, this]
  rfl

theorem only_frag (limit : Nat) : Only putFrag (getFrag limit) := only_map (only_str limit) _ fun _ => rfl

theorem reads_frags {limit : Nat} (hl : limit ≤ 2 ^ 64) (v : Cow (List Frag)) :
    Reads limit putFrags (getFrags limit) ownFrags v := by
  intro hlen rest
  have := reads_seq hl (put := putFrag) (get := getFrag limit) (f := ownFrag) (l := v.val) (fun f => putStr_ne _)
    (fun f _ => reads_frag hl f) hlen rest
  simp only [getFrags, mapR, putFrags, this]
  rfl

theorem only_frags (limit : Nat) : Only putFrags (getFrags limit) :=
  only_map (only_seq limit (only_frag limit)) _ fun _ => rfl

theorem reads_sel {limit : Nat} (hl : limit ≤ 2 ^ 64) (s : Sel) : Reads limit putSel (getSel limit) ownSel s := by
  intro hlen rest
  have := reads_frags hl s.fragments hlen rest
  simp only [getSel, mapR, putSel, this]
  rfl

theorem only_sel (limit : Nat) : Only putSel (getSel limit) := only_map (only_frags limit) _ fun _ => rfl

theorem reads_sels {limit : Nat} (hl : limit ≤ 2 ^ 64) (v : Cow (List Sel)) :
    Reads limit putSels (getSels limit) ownSels v := by
  intro hlen rest
  have := reads_seq hl (put := putSel) (get := getSel limit) (f := ownSel) (l := v.val) (fun s => putSeq_ne _ _)
    (fun s _ => reads_sel hl s) hlen rest
  simp only [getSels, mapR, putSels, this]
  rfl

theorem only_sels (limit : Nat) : Only putSels (getSels limit) :=
  only_map (only_seq limit (only_sel limit)) _ fun _ => rfl

theorem putRBCs_eq : ∀ l : List TRBC, putRBCs l = l.flatMap putRBC
  | [] => rfl
  | x :: xs => by simp [putRBCs, putRBCs_eq xs]

theorem ownRBCs_eq : ∀ l : List TRBC, ownRBCs l = l.map ownRBC
  | [] => rfl
  | x :: xs => by simp [ownRBCs, ownRBCs_eq xs]

theorem putBody (b : List TRBC) : le 8 b.length ++ putRBCs b = putSeq putRBC b := by
  rw [putRBCs_eq]; rfl

theorem putRBC_ne (x : TRBC) : putRBC x ≠ [] := by cases x <;> simp [putRBC, le]

theorem length_mem {α : Type} {put : α → Bytes} {a : α} : ∀ {l : List α}, a ∈ l → (put a).length ≤ (l.flatMap put).length
  | b :: l, h => by
    simp only [List.flatMap_cons, List.length_append]
    rcases List.mem_cons.1 h with rfl | h
    · omega
    · have := length_mem (put := put) h
      omega

theorem getNum4 {n : Nat} (h : n < 256 ^ 4) (rest : Bytes) : getNum 4 (le 4 n ++ rest) = some (n, rest) := getNum_le 4 n h rest

theorem reads_rbc {limit : Nat} (hl : limit ≤ 2 ^ 64) : ∀ (n : Nat) (x : TRBC), (putRBC x).length ≤ n →
    Reads limit putRBC (getRBC limit n) ownRBC x
  | 0, x, h => absurd (List.length_eq_zero_iff.1 (Nat.le_zero.1 h)) (putRBC_ne x)
  | n + 1, .attr k v, _ => by
    intro hlen rest
    simp only [putRBC, List.length_append, le_length] at hlen
    have := reads_both (reads_str hl k.val) (reads_frags hl v) (by simp only [List.length_append]; omega) rest
    simp only [putRBC, List.append_assoc] at this ⊢
    simp only [getRBC, getNum4 (show 0 < 256 ^ 4 by decide), mapR, this]
    rfl
  | n + 1, .rule _ c _ b, h => by
    intro hlen rest
    simp only [putRBC, putBody, List.length_append, le_length] at hlen h
    have hb : Reads limit (putSeq putRBC) (getSeq limit (getRBC limit n)) (List.map ownRBC) b :=
      reads_seq hl putRBC_ne fun y hy => reads_rbc hl n y (by
        have := length_mem (put := putRBC) hy
        simp only [putSeq, List.length_append, le_length] at h
        omega)
    have := reads_both (reads_frags hl c) hb (by simp only [List.length_append]; omega) rest
    simp only [putRBC, putBody, List.append_assoc] at this ⊢
    simp only [getRBC, getNum4 (show 1 < 256 ^ 4 by decide), mapR, this, ownRBC, ownRBCs_eq]
    rfl
  | n + 1, .block _ c _ b, h => by
    intro hlen rest
    simp only [putRBC, putBody, List.length_append, le_length] at hlen h
    have hb : Reads limit (putSeq putRBC) (getSeq limit (getRBC limit n)) (List.map ownRBC) b :=
      reads_seq hl putRBC_ne fun y hy => reads_rbc hl n y (by
        have := length_mem (put := putRBC) hy
        simp only [putSeq, List.length_append, le_length] at h
        omega)
    have := reads_both (reads_sels hl c) hb (by simp only [List.length_append]; omega) rest
    simp only [putRBC, putBody, List.append_assoc] at this ⊢
    simp only [getRBC, getNum4 (show 2 < 256 ^ 4 by decide), mapR, this, ownRBC, ownRBCs_eq]
    rfl

theorem only_rbc (limit : Nat) : ∀ n, Only putRBC (getRBC limit n)
  | 0 => by intro b x rest h; cases h
  | n + 1 => by
    intro b x rest h
    simp only [getRBC] at h
    have hb := only_seq limit (only_rbc limit n)
    split at h
    · rename_i b1 h1
      have h2 := only_map (only_both (only_str limit) (only_frags limit)) (fun x => TRBC.attr ⟨.owned, x.1⟩ x.2)
        (put' := fun x => (putRBC x).drop 4) (fun _ => rfl) _ _ _ h
      obtain ⟨k, v, rfl⟩ : ∃ k v, x = .attr k v := by
        simp only [mapR, Option.map_eq_some_iff, Prod.mk.injEq] at h
        obtain ⟨a, -, rfl, -⟩ := h
        exact ⟨_, _, rfl⟩
      rw [(getNum_only h1).1, h2]
      rfl
    · rename_i b1 h1
      have h2 := only_map (only_both (only_frags limit) hb) (fun x => TRBC.rule .owned x.1 .owned x.2)
        (put' := fun x => (putRBC x).drop 4) (fun x => by simp only [putRBC, putBody]; rfl) _ _ _ h
      obtain ⟨a, k, l, v, rfl⟩ : ∃ a k l v, x = .rule a k l v := by
        simp only [mapR, Option.map_eq_some_iff, Prod.mk.injEq] at h
        obtain ⟨a, -, rfl, -⟩ := h
        exact ⟨_, _, _, _, rfl⟩
      rw [(getNum_only h1).1, h2]
      rfl
    · rename_i b1 h1
      have h2 := only_map (only_both (only_sels limit) hb) (fun x => TRBC.block .owned x.1 .owned x.2)
        (put' := fun x => (putRBC x).drop 4) (fun x => by simp only [putRBC, putBody]; rfl) _ _ _ h
      obtain ⟨a, k, l, v, rfl⟩ : ∃ a k l v, x = .block a k l v := by
        simp only [mapR, Option.map_eq_some_iff, Prod.mk.injEq] at h
        obtain ⟨a, -, rfl, -⟩ := h
        exact ⟨_, _, _, _, rfl⟩
      rw [(getNum_only h1).1, h2]
      rfl
    · cases h

theorem putScope_ne (x : TScope) : putScope x ≠ [] := by cases x <;> simp [putScope, le]

theorem reads_body {limit : Nat} (hl : limit ≤ 2 ^ 64) {n : Nat} {b : List TRBC} (h : (putSeq putRBC b).length ≤ n) :
    Reads limit (putSeq putRBC) (getSeq limit (getRBC limit n)) (List.map ownRBC) b :=
  reads_seq hl putRBC_ne fun y hy => reads_rbc hl n y (by
    have := length_mem (put := putRBC) hy
    simp only [putSeq, List.length_append, le_length] at h
    omega)

theorem reads_scope {limit : Nat} (hl : limit ≤ 2 ^ 64) {n : Nat} (x : TScope) (h : (putScope x).length ≤ n) :
    Reads limit putScope (getScope limit n) ownScope x := by
  intro hlen rest
  cases x with
  | block c l b =>
    simp only [putScope, putBody, List.length_append, le_length] at hlen h
    have := reads_both (reads_sels hl c) (reads_body hl (n := n) (b := b) (by omega)) (by simp only [List.length_append]; omega)
      rest
    simp only [putScope, putBody, List.append_assoc] at this ⊢
    simp only [getScope, getNum4 (show 0 < 256 ^ 4 by decide), mapR, this, ownScope, ownRBCs_eq]
    rfl
  | rule c l b =>
    simp only [putScope, putBody, List.length_append, le_length] at hlen h
    have := reads_both (reads_frags hl c) (reads_body hl (n := n) (b := b) (by omega)) (by simp only [List.length_append]; omega)
      rest
    simp only [putScope, putBody, List.append_assoc] at this ⊢
    simp only [getScope, getNum4 (show 1 < 256 ^ 4 by decide), mapR, this, ownScope, ownRBCs_eq]
    rfl

theorem only_scope (limit n : Nat) : Only putScope (getScope limit n) := by
  intro b x rest h
  simp only [getScope] at h
  have hb := only_seq limit (only_rbc limit n)
  split at h
  · rename_i b1 h1
    have h2 := only_map (only_both (only_sels limit) hb) (fun x => TScope.block x.1 .owned x.2)
      (put' := fun x => (putScope x).drop 4) (fun x => by simp only [putScope, putBody]; rfl) _ _ _ h
    obtain ⟨k, l, v, rfl⟩ : ∃ k l v, x = .block k l v := by
      simp only [mapR, Option.map_eq_some_iff, Prod.mk.injEq] at h
      obtain ⟨a, -, rfl, -⟩ := h
      exact ⟨_, _, _, rfl⟩
    rw [(getNum_only h1).1, h2]
    rfl
  · rename_i b1 h1
    have h2 := only_map (only_both (only_frags limit) hb) (fun x => TScope.rule x.1 .owned x.2)
      (put' := fun x => (putScope x).drop 4) (fun x => by simp only [putScope, putBody]; rfl) _ _ _ h
    obtain ⟨k, l, v, rfl⟩ : ∃ k l v, x = .rule k l v := by
      simp only [mapR, Option.map_eq_some_iff, Prod.mk.injEq] at h
      obtain ⟨a, -, rfl, -⟩ := h
      exact ⟨_, _, _, rfl⟩
    rw [(getNum_only h1).1, h2]
    rfl
  · cases h

theorem reads_sheet {limit : Nat} (hl : limit ≤ 2 ^ 64) {n : Nat} (s : TSheet) (h : (putSheet s).length ≤ n) :
    Reads limit putSheet (getSheet limit n) ownSheet s :=
  reads_map (α := TSheet) (put := putSheet) (f := fun s => s.val.map ownScope)
    (fun hh => reads_seq hl putScope_ne (fun x hx => reads_scope hl x (by
      have := length_mem (put := putScope) hx
      simp only [putSheet, putSeq, List.length_append, le_length] at h
      omega)) hh) _

theorem only_sheet (limit n : Nat) : Only putSheet (getSheet limit n) :=
  only_map (only_seq limit (only_scope limit n)) _ fun _ => rfl

theorem reads_key {limit : Nat} (hl : limit ≤ 2 ^ 64) {n : Nat} (k : TKey) (h : (putKey k).length ≤ n) :
    Reads limit putKey (getKey limit n) ownKey k := by
  intro hlen rest
  simp only [putKey, List.length_append] at hlen h
  have h1 : Reads limit (fun a : Str × TSheet => putStr a.1 ++ putSheet a.2) (both (getStr limit) (getSheet limit n))
      (fun a => (a.1, ownSheet a.2)) (k.pref.val, k.ast) := fun hh rest =>
    reads_both (reads_str hl _) (reads_sheet hl k.ast (by omega)) hh rest
  have := reads_both (reads_bool limit k.isGlobal) h1 (by simp only [List.length_append]; exact hlen) rest
  simp only [getKey, mapR, putKey, this]
  rfl

theorem only_key (limit n : Nat) : Only putKey (getKey limit n) :=
  only_map (only_both only_bool (only_both (only_str limit) (only_sheet limit n))) _ fun _ => rfl

/-- An entry without its text, owned. -/
def ownEntry (e : TEntry) : TEntry := ⟨ownKey e.key, e.id, []⟩

theorem reads_entry {limit : Nat} (hl : limit ≤ 2 ^ 64) {n : Nat} (e : TEntry) (h : (putEntry e).length ≤ n) :
    Reads limit putEntry (getEntry limit n) ownEntry e := by
  intro hlen rest
  simp only [putEntry, List.length_append] at hlen h
  have := reads_both (reads_key hl (n := n) e.key (by omega)) (reads_str hl e.id)
    (by simp only [List.length_append]; omega) rest
  simp only [getEntry, mapR, putEntry, this]
  rfl

theorem only_entry (limit n : Nat) : Only putEntry (getEntry limit n) :=
  only_map (only_both (only_key limit n) (only_str limit)) _ fun _ => rfl

theorem putEntry_ne (e : TEntry) : putEntry e ≠ [] := by simp [putEntry, putKey, putBool]

theorem getSeq_write {limit : Nat} (hl : limit ≤ 2 ^ 64) (data : List TEntry) (hd : (write data).length < limit) (n : Nat)
    (hn : (write data).length ≤ n) (rest : Bytes) :
    getSeq limit (getEntry limit n) (write data ++ rest) = some (data.map ownEntry, rest) :=
  reads_seq hl putEntry_ne (fun e he => reads_entry hl e (by
    have := length_mem (put := putEntry) he
    simp only [write, putSeq, List.length_append, le_length] at hn
    omega)) hd rest

theorem read_write {limit : Nat} (hl : limit ≤ 2 ^ 64) (data : List TEntry) (hd : (write data).length < limit)
    (rest : Bytes) : read limit (write data ++ rest) = some (data.map ownEntry) := by
  simp only [read, getSeq_write hl data hd _ (show (write data).length ≤ (write data ++ rest).length by simp) rest,
    Option.map_some]

theorem read_only {limit : Nat} {b : Bytes} {data : List TEntry} (h : read limit b = some data) :
    ∃ rest, b = write data ++ rest := by
  simp only [read, Option.map_eq_some_iff, Prod.exists] at h
  obtain ⟨x, rest, h1, rfl⟩ := h
  exact ⟨rest, only_seq limit (only_entry limit b.length) _ _ _ h1⟩

/-! ## What is written depends on the styles only -/

mutual
/-- What is written for a tree. -/
def eRBC : RBC → Bytes
  | .attr k v => le 4 0 ++ (putStr k ++ putSeq putStr v)
  | .rule c b => le 4 1 ++ (putSeq putStr c ++ (le 8 b.length ++ eRBCs b))
  | .block c b => le 4 2 ++ (putSeq (putSeq putStr) c ++ (le 8 b.length ++ eRBCs b))
/-- Of a list. -/
def eRBCs : List RBC → Bytes
  | [] => []
  | x :: xs => eRBC x ++ eRBCs xs
end

/-- Of a scope. -/
def eScope : ScopeContent → Bytes
  | .block c b => le 4 0 ++ (putSeq (putSeq putStr) c ++ (le 8 b.length ++ eRBCs b))
  | .rule c b => le 4 1 ++ (putSeq putStr c ++ (le 8 b.length ++ eRBCs b))

/-- Of a style with its class. -/
def eStyle (x : Manager.Key × Str) : Bytes :=
  (putBool x.1.isGlobal ++ (putStr x.1.pref ++ putSeq eScope x.1.ast)) ++ putStr x.2

theorem putSeq_map {α β : Type} (f : α → β) (put : β → Bytes) (l : List α) :
    putSeq put (l.map f) = putSeq (fun a => put (f a)) l := by
  simp [putSeq, List.flatMap_map]

theorem putFrags_eq (v : Cow (List Frag)) : putFrags v = putSeq putStr (frags v) := by
  rw [frags, putSeq_map]; rfl

theorem putSels_eq (v : Cow (List Sel)) : putSels v = putSeq (putSeq putStr) (sels v) := by
  rw [sels, putSeq_map]
  simp only [putSels]
  congr 1
  funext s
  exact putFrags_eq _

theorem erases_length : ∀ l : List TRBC, (TRBC.erases l).length = l.length
  | [] => rfl
  | x :: xs => by simp [TRBC.erases, erases_length xs]

mutual
theorem putRBC_eq : ∀ x : TRBC, putRBC x = eRBC x.erase
  | .attr k v => by simp only [putRBC, TRBC.erase, eRBC, putFrags_eq]
  | .rule _ c _ b => by simp only [putRBC, TRBC.erase, eRBC, putFrags_eq, erases_length, putRBCs_erase b]
  | .block _ c _ b => by simp only [putRBC, TRBC.erase, eRBC, putSels_eq, erases_length, putRBCs_erase b]
theorem putRBCs_erase : ∀ l : List TRBC, putRBCs l = eRBCs (TRBC.erases l)
  | [] => rfl
  | x :: xs => by simp only [putRBCs, TRBC.erases, eRBCs, putRBC_eq x, putRBCs_erase xs]
end

theorem putScope_eq (x : TScope) : putScope x = eScope x.erase := by
  cases x <;> simp only [putScope, TScope.erase, eScope, putFrags_eq, putSels_eq, erases_length, putRBCs_erase]

theorem putEntry_eq (e : TEntry) : putEntry e = eStyle (e.key.erase, e.id) := by
  simp only [putEntry, putKey, eStyle, TKey.erase, eraseSheet, putSheet, putSeq_map]
  have : putScope = fun a => eScope a.erase := funext putScope_eq
  rw [this]

theorem write_eq (data : List TEntry) : write data = putSeq eStyle (data.map fun e => (e.key.erase, e.id)) := by
  rw [putSeq_map]
  have : putEntry = fun e : TEntry => eStyle (e.key.erase, e.id) := funext putEntry_eq
  rw [write, this]

end Compact
