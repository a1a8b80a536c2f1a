import Verif.Proofs.Random
import Verif.Props.Threads
import Verif.Props.Hydrated

/-!
# C118: random classes

With feature `random`, ids are random strings, so that two styles can get the same class.
Here it is counted how often this happens: among all the sequences of numbers that the
generator can give, which are taken to be equally likely.
-/

namespace Manager

/-! ## What a random string is -/

/-- **C118**, the strings. Call `k` returns the characters for the numbers `8 k` to `8 k + 7`
of the generator: eight letters or digits. -/
theorem C118_strings (rng : List (Fin 62)) (k : Nat) (h : 8 * (k + 1) ≤ rng.length) :
    (randomEntropy rng k).length = 8 ∧ (∀ x ∈ randomEntropy rng k, x.isAlphanum = true) ∧
    ∀ j < 8, (randomEntropy rng k)[j]? = (rng[8 * k + j]?).map alphanumeric := by
  rw [randomEntropy_eq]
  refine ⟨?_, ?_, ?_⟩
  · rw [List.length_map, List.length_take, List.length_drop]; omega
  · intro x hx
    obtain ⟨r, -, rfl⟩ := List.mem_map.1 hx
    exact alphanumeric_isAlphanum r
  · intro j hj
    rw [List.getElem?_map, List.getElem?_take_of_lt hj, List.getElem?_drop]

theorem randomEntropy_alphanum (rng : List (Fin 62)) (k : Nat) : ∀ x ∈ randomEntropy rng k, x.isAlphanum = true := by
  rw [randomEntropy_eq]
  intro x hx
  obtain ⟨r, -, rfl⟩ := List.mem_map.1 hx
  exact alphanumeric_isAlphanum r

/-- **C118**, classes. Whatever the generator gives, the class of every style that is created
is its prefix, `-` or `-global-`, and the string of one of the calls; it is a css identifier
if the prefix is. -/
theorem C118_classes (env : Env) (rng : List (Fin 62)) (d : Dom) (ops : List Op) (s : St)
    (hs : s = run (env.withRandom rng) ops (St.init d)) (c : Content) (hc : c ∈ s.heap) (ho : c.origin = .created) :
    (∃ n < s.ctr, c.id = c.key.pref ++ (if c.key.isGlobal then c! "-global-" else c! "-") ++ randomEntropy rng n) ∧
    (cssIdent c.key.pref = true → cssIdent c.id = true) := by
  refine ⟨?_, (created_id (env.withRandom rng) d ops s hs (fun n => randomEntropy_alphanum rng n) c hc ho).2⟩
  obtain ⟨num, hn⟩ := numbered_run (env.withRandom rng) ops (Inv.init d) (numbered_init _ d)
  obtain ⟨p, hp⟩ := List.getElem?_of_mem hc
  rw [← hs] at hn
  obtain ⟨h1, h2⟩ := hn.id p c hp ho
  refine ⟨num p, h1, h2.trans ?_⟩
  rw [makeId]
  split <;> rfl

/-! ## How often strings coincide -/

/-- What is counted: `sequences n` has every sequence of `n` numbers below 62, once. -/
theorem C118_all (n : Nat) : (∀ l : List (Fin 62), l ∈ sequences n ↔ l.length = n) ∧ (sequences n).Nodup ∧
    (sequences n).length = 62 ^ n :=
  ⟨mem_sequences n, nodup_sequences n, length_sequences n⟩

/-- **C118**, exactly. Of the `62 ^ (8 n)` sequences of numbers for `n` calls, those with which
all calls return different strings are `N (N − 1) ⋯ (N − n + 1)`, where `N = 62 ^ 8`. -/
theorem C118_exactly (n : Nat) : howMany (8 * n) (fun rng => decide (names rng n).Nodup) = falling (62 ^ 8) n := by
  rw [howMany, ← count_distinct n]
  apply List.countP_congr
  intro l _
  simp only [decide_eq_true_eq]
  exact nodup_names l n

/-- The sequences with which something goes wrong, if it goes wrong only when strings of the
`n` calls coincide. -/
theorem rare (n : Nat) (bad : List (Fin 62) → Bool)
    (h : ∀ l, l.length = 8 * n → bad l = true → ¬ (names l n).Nodup) :
    2 * 62 ^ 8 * howMany (8 * n) bad ≤ n * (n - 1) * 62 ^ (8 * n) := by
  have h1 : howMany (8 * n) bad ≤ howMany (8 * n) (fun l => decide ¬ (decide (names l n).Nodup) = true) := by
    apply List.countP_mono_left
    intro l hl hb
    simpa using h l ((mem_sequences _ l).1 hl) hb
  have h2 := List.length_eq_countP_add_countP (fun rng => decide (names rng n).Nodup) (l := sequences (8 * n))
  have h3 := C118_exactly n
  rw [howMany] at h3
  have h4 := falling_bound (62 ^ 8) n
  rw [length_sequences, h3] at h2
  have h5 : 62 ^ (8 * n) = (62 ^ 8) ^ n := Nat.pow_mul 62 8 n
  rw [h5] at h2 ⊢
  simp only [howMany] at h1 ⊢
  generalize (sequences (8 * n)).countP _ = x at h1 h2
  generalize (sequences (8 * n)).countP bad = y at h1 ⊢
  generalize falling (62 ^ 8) n = F at h2 h4
  generalize (62 ^ 8) ^ n = P at h2 h4 ⊢
  generalize 2 * 62 ^ 8 = M at h4 ⊢
  generalize n * (n - 1) * P = Q at h4 ⊢
  subst h2
  rw [Nat.mul_add] at h4
  have := Nat.mul_le_mul_left M h1
  omega

/-- **C118**, a bound. The part of the sequences with which two of `n` calls return the same
string is at most `n (n − 1) / 2` out of `62 ^ 8`. -/
theorem C118_rare (n : Nat) :
    2 * 62 ^ 8 * howMany (8 * n) (fun rng => !decide (names rng n).Nodup) ≤ n * (n - 1) * 62 ^ (8 * n) :=
  rare n _ (fun l _ h => by simpa using h)

/-- With more calls than there are strings, two always coincide. -/
theorem C118_too_many (n : Nat) (h : 62 ^ 8 < n) (rng : List (Fin 62)) (hr : rng.length = 8 * n) :
    ¬ (names rng n).Nodup := by
  intro hn
  have h0 : falling (62 ^ 8) n = 0 := by
    have : ∀ m k, m < k → falling m k = 0 := by
      intro m k hk
      induction k with
      | zero => omega
      | succ k ih =>
        rw [falling]
        by_cases hlt : m < k
        · rw [ih hlt, Nat.zero_mul]
        · rw [show m - k = 0 by omega, Nat.mul_zero]
    exact this _ _ h
  have := C118_exactly n
  rw [h0, howMany, List.countP_eq_zero] at this
  exact this rng ((mem_sequences _ rng).2 hr) (by simpa using hn)

theorem names_inj {rng : List (Fin 62)} {n : Nat} (h : (names rng n).Nodup) {a b : Nat} (ha : a < n) (hb : b < n)
    (he : randomEntropy rng a = randomEntropy rng b) : a = b := by
  have h1 : (names rng n)[a]? = some (randomEntropy rng a) := by simp [names, ha]
  have h2 : (names rng n)[b]? = some (randomEntropy rng b) := by simp [names, hb]
  exact (List.getElem?_inj (List.getElem?_eq_some_iff.1 h1).1 h).1 (h1.trans (by rw [he]; exact h2.symm))

/-- **C118**, what the theorems about applications need. `FreshIds` (`Spec/Entropy`) is their
assumption on ids: it holds if the strings differ, and so fails with at most
`n (n − 1) / 2` out of `62 ^ 8` of the sequences. -/
theorem C118_fresh (env : Env) (n : Nat) :
    (∀ rng, (names rng n).Nodup → FreshIds (env.withRandom rng) n) ∧
    ∀ bad : List (Fin 62) → Bool, (∀ rng, bad rng = true → ¬ FreshIds (env.withRandom rng) n) →
      2 * 62 ^ 8 * howMany (8 * n) bad ≤ n * (n - 1) * 62 ^ (8 * n) := by
  have key : ∀ rng, (names rng n).Nodup → FreshIds (env.withRandom rng) n := fun rng h =>
    Or.inr ⟨fun a _ => randomEntropy_alphanum rng a, fun a b ha hb he => names_inj h ha hb he⟩
  exact ⟨key, fun bad h => rare n bad (fun rng _ hb hn => h rng hb (key rng hn))⟩

/-! ## How often classes coincide -/

theorem creates_step (env : Env) (op : Op) {s : St} (hi : Inv s) :
    (step env op s).1.ctr ≤ s.ctr + if op.isCreate then 1 else 0 := by
  cases hc : op.isCreate with
  | true =>
    have : (step env op s).1.ctr ≤ s.ctr + 1 := by
      rcases (step_tr env hi op).newContents with ⟨-, a, b⟩ | ⟨i, key, -, a⟩ | ⟨i, data, r, -, -, a⟩ <;> omega
    simpa using this
  | false =>
    rw [step_ctr env op s (by intro mh kind src fault h; subst h; cases hc)]
    simp

theorem creates_run (env : Env) : ∀ (ops : List Op) {s : St}, Inv s → (run env ops s).ctr ≤ s.ctr + ops.countP Op.isCreate
  | [], _, _ => by simp [run]
  | op :: ops, s, hi => by
    have h1 := creates_run env ops (inv_step env op hi)
    have h2 := creates_step env op hi
    rw [List.countP_cons]
    simp only [run]
    omega

theorem nodup_createdIds {s : St} (h : ∀ (p q : Nat) (c c' : Content), s.heap[p]? = some c → s.heap[q]? = some c' →
    c.origin = .created → c'.origin = .created → c.id = c'.id → p = q) : (createdIds s).Nodup := by
  rw [createdIds, List.Nodup, List.pairwise_map, List.pairwise_filter, List.pairwise_iff_getElem]
  intro a b ha hb hab h1 h2 he
  have := h a b _ _ (List.getElem?_eq_getElem ha) (List.getElem?_eq_getElem hb) (by simpa using h1) (by simpa using h2) he
  omega

theorem no_dash (rng : List (Fin 62)) (n : Nat) : '-' ∉ randomEntropy rng n :=
  fun h => absurd (randomEntropy_alphanum rng n _ h) (by decide)

/-- **C118**, a process. For every history with at most `n` calls that ask for a style, by any
managers with any prefixes: the part of the sequences with which two of the styles that it
creates get the same class is at most `n (n − 1) / 2` out of `62 ^ 8`. -/
theorem C118_history (env : Env) (d : Dom) (ops : List Op) (n : Nat) (hn : ops.countP Op.isCreate ≤ n) :
    2 * 62 ^ 8 * howMany (8 * n) (fun rng => !decide (createdIds (run (env.withRandom rng) ops (St.init d))).Nodup) ≤
      n * (n - 1) * 62 ^ (8 * n) := by
  apply rare
  intro rng _ hb hnd
  simp only [Bool.not_eq_true', decide_eq_false_iff_not] at hb
  apply hb
  have hctr : (run (env.withRandom rng) ops (St.init d)).ctr ≤ n := by
    have := creates_run (env.withRandom rng) ops (Inv.init d)
    simp only [St.init] at this ⊢
    omega
  exact nodup_createdIds (fun p q c c' hp hq ho ho' hid =>
    C21_random (env.withRandom rng) d ops _ rfl (fun k _ => no_dash rng k)
      (fun a b ha hb he => names_inj hnd (by omega) (by omega) he) p q c c' hp hq ho ho' hid)

theorem Threads.creates_step (env : Env) (x : Nat × Op) {c : Threads} :
    (c.step env x).st.ctr ≤ c.st.ctr + if x.2.isCreate then 1 else 0 := by
  obtain ⟨t, op⟩ := x
  have whole : (∀ mh kind src fault, op = .create mh kind src fault → lookup mh kind src fault c.st = none) →
      (Manager.step env op c.st).1.ctr ≤ c.st.ctr + if op.isCreate then 1 else 0 := by
    intro h
    rw [step_ctr env _ _ h]; omega
  rw [Threads.step]
  cases hp : c.pc (t, op).1 with
  | some p =>
    show (p.finish env c.st).1.ctr ≤ _
    rw [finish_ctr]; omega
  | none =>
    dsimp only
    by_cases hb : (op.boundTo c.st).all (fun i => decide (c.owner i = t)) = true
    · rw [if_pos hb]
      cases op with
      | create mh kind src fault =>
        rw [Threads.call]
        cases hl : lookup mh kind src fault c.st with
        | none => exact whole (by intro a b e f h; cases h; exact hl)
        | some p => exact Nat.le_refl _
      | _ => exact whole (by intro a b e f h; cases h)
    · rw [if_neg hb]; omega

theorem Threads.creates_run (env : Env) : ∀ (sched : List (Nat × Op)) (c : Threads),
    (Threads.run env sched c).st.ctr ≤ c.st.ctr + sched.countP (fun x => x.2.isCreate)
  | [], c => by simp [Threads.run]
  | x :: xs, c => by
    have h1 := Threads.creates_run env xs (c.step env x)
    have h2 := Threads.creates_step env x (c := c)
    rw [List.countP_cons]
    simp only [Threads.run]
    omega

/-- **C118**, threads. The same for a process with any number of threads and any schedule,
where `rng` has the numbers in the order of the calls of `get_entropy`, each from the
generator of its thread. -/
theorem C118_threads (env : Env) (d : Dom) (sched : List (Nat × Op)) (n : Nat)
    (hn : sched.countP (fun x => x.2.isCreate) ≤ n) :
    2 * 62 ^ 8 * howMany (8 * n)
      (fun rng => !decide (createdIds (Threads.run (env.withRandom rng) sched (Threads.init d)).st).Nodup) ≤
      n * (n - 1) * 62 ^ (8 * n) := by
  apply rare
  intro rng _ hb hnd
  simp only [Bool.not_eq_true', decide_eq_false_iff_not] at hb
  apply hb
  have hctr : (Threads.run (env.withRandom rng) sched (Threads.init d)).st.ctr ≤ n := by
    have := Threads.creates_run (env.withRandom rng) sched (Threads.init d)
    have h0 : (Threads.init d).st.ctr = 0 := rfl
    omega
  generalize hc : Threads.run (env.withRandom rng) sched (Threads.init d) = c at hctr ⊢
  obtain ⟨π, h1, -, k, -, h2, h3, -⟩ := C67_sequential (env.withRandom rng) d sched c hc.symm
  have := nodup_createdIds (s := { c.st with ctr := k }) (fun p q x y hp hq ho ho' hid =>
    C21_random ((env.withRandom rng).reordered π) d (c.done.map Done.op) { c.st with ctr := k } h2.symm
      (fun j _ => no_dash rng (π j))
      (fun a b ha hb he => h1 a b (names_inj hnd (by have := h3 a ha; omega) (by have := h3 b hb; omega) he))
      p q x y hp hq ho ho' hid)
  exact this

theorem randomEntropy_take {l : List (Fin 62)} {n a : Nat} (ha : a < n) :
    randomEntropy (l.take (8 * n)) a = randomEntropy l a := by
  rw [randomEntropy_eq, randomEntropy_eq, List.drop_take, List.take_take, Nat.min_eq_left (by omega)]

theorem randomEntropy_drop (l : List (Fin 62)) (n a : Nat) :
    randomEntropy (l.drop (8 * n)) a = randomEntropy l (n + a) := by
  rw [randomEntropy_eq, randomEntropy_eq, List.drop_drop, Nat.mul_add]

/-- **C118**, hydration. A server whose history has at most `n` calls that ask for a style,
and a client whose history has at most `m` and loads style data only of styles that the server
created; the page and the history of the client may depend on what the server did. The part of
the sequences for both with which two different styles have the same class on the client,
whether loaded or new, is at most `(n + m) (n + m − 1) / 2` out of `62 ^ 8`. -/
theorem C118_hydration (senv : Env) (sd : Dom) (sops : List Op) (n : Nat) (hn : sops.countP Op.isCreate ≤ n)
    (env : Env) (d : St → Dom) (ops : St → List Op) (m : Nat) (hm : ∀ server, (ops server).countP Op.isCreate ≤ m)
    (hload : ∀ rng server, server = run (senv.withRandom rng) sops (St.init sd) → ∀ mh data, Op.load mh data ∈ ops server →
      ∀ e ∈ data, ∃ c ∈ server.heap, c.origin = .created ∧ e.key = c.key ∧ e.id = c.id) :
    2 * 62 ^ 8 * howMany (8 * (n + m)) (fun rng =>
        let server := run (senv.withRandom (rng.take (8 * n))) sops (St.init sd)
        clash (run (env.withRandom (rng.drop (8 * n))) (ops server) (St.init (d server)))) ≤
      (n + m) * (n + m - 1) * 62 ^ (8 * (n + m)) := by
  apply rare
  intro rng _ hb hnd
  simp only [clash, List.any_eq_true, decide_eq_true_eq] at hb
  generalize hserver : run (senv.withRandom (rng.take (8 * n))) sops (St.init sd) = server at hb
  generalize hs : run (env.withRandom (rng.drop (8 * n))) (ops server) (St.init (d server)) = s at hb
  obtain ⟨c, hc, c', hc', hid, hne⟩ := hb
  obtain ⟨p, hp⟩ := List.getElem?_of_mem hc
  obtain ⟨p', hp'⟩ := List.getElem?_of_mem hc'
  have hsc : server.ctr ≤ n := by
    have := creates_run (senv.withRandom (rng.take (8 * n))) sops (Inv.init sd)
    rw [hserver] at this
    simp only [St.init] at this
    omega
  have hcc : s.ctr ≤ m := by
    have := creates_run (env.withRandom (rng.drop (8 * n))) (ops server) (Inv.init (d server))
    rw [hs] at this
    simp only [St.init] at this
    have := hm server
    omega
  refine hne (same_id_same_key (senv.withRandom (rng.take (8 * n))) sd sops server hserver.symm
    (env.withRandom (rng.drop (8 * n))) (d server) (ops server) s hs.symm (fun k => ⟨no_dash _ k, no_dash _ k⟩)
    ?_ ?_ ?_ (hload _ server hserver.symm) p p' c c' hp hp' hid)
  · intro a b ha hb he
    simp only [Env.withRandom] at he
    rw [randomEntropy_take (by omega), randomEntropy_take (by omega)] at he
    exact names_inj hnd (by omega) (by omega) he
  · intro a b ha hb he
    simp only [Env.withRandom] at he
    rw [randomEntropy_drop, randomEntropy_drop] at he
    have := names_inj hnd (by omega) (by omega) he
    omega
  · intro a b ha hb he
    simp only [Env.withRandom] at he
    rw [randomEntropy_take (by omega), randomEntropy_drop] at he
    have := names_inj hnd (by omega) (by omega) he
    omega

/-! ## Cases -/

/-- Numbers for two calls. -/
def demoRng : List (Fin 62) := [0, 25, 26, 51, 52, 61, 7, 7, 33, 1, 2, 3, 4, 5, 6, 6]

/-- Two strings, and the classes of two styles. -/
example : randomEntropy demoRng 0 = c! "AZaz09HH" ∧ randomEntropy demoRng 1 = c! "hBCDEFGG" ∧ (names demoRng 2).Nodup ∧
    createdIds (run (demoEnv.withRandom demoRng) [.newMgr (c! "stylist") none true none,
      .create 0 .scoped (.text (c! "color: red;")) false, .create 0 .global (.text (c! "color: red;")) false]
      (St.init demoPage)) = [c! "stylist-AZaz09HH", c! "stylist-global-hBCDEFGG"] := by decide +kernel

/-- The whole page of such a process is as it should be: `C89_application` applies. -/
example : let ops : List Op := [.newMgr (c! "stylist") none true none,
      .create 0 .scoped (.text (c! "color: red;")) false, .create 0 .global (.text (c! "color: red;")) false]
    let env := demoEnv.withRandom demoRng
    let s := run env ops (St.init demoPage)
    FreshIds env s.ctr ∧ s.ctr = 2 ∧ pageReads (s.dom.childrenOf 0) = some
      [⟨[c! ".stylist-AZaz09HH"], c! "color", c! "red"⟩, ⟨[c! ":root"], c! "color", c! "red"⟩] :=
  ⟨(C118_fresh demoEnv 2).1 demoRng (by decide +kernel), by decide +kernel, by decide +kernel⟩

/-- A sequence with which two styles do get the same class: the bound is about something that
happens. -/
example : ¬ (names (List.replicate 16 5) 2).Nodup ∧
    createdIds (run (demoEnv.withRandom (List.replicate 16 5)) [.newMgr (c! "stylist") none true none,
      .create 0 .scoped (.text (c! "color: red;")) false, .create 0 .scoped (.text (c! "color: blue;")) false]
      (St.init demoPage)) = [c! "stylist-FFFFFFFF", c! "stylist-FFFFFFFF"] := by decide +kernel

/-- For a page with ten thousand styles: less than one in four million. -/
example : 10000 * (10000 - 1) * 2000000 < 62 ^ 8 := by decide

/-- Two calls return the same string with exactly one in `62 ^ 8` of the sequences. -/
example : 62 ^ 16 - falling (62 ^ 8) 2 = 62 ^ 8 := by decide +kernel

/-- Non-vacuity of `C118_hydration`: a server with two styles, and a client that loads all that
the server created and makes two styles. -/
example : let sops : List Op := [.renderStatic, .newMgr (c! "stylist") none true (some 0),
      .create 0 .scoped (.text (c! "color: red;")) false, .create 0 .scoped (.text (c! "color: blue;")) false]
    let ops : St → List Op := fun server => [.newMgr (c! "stylist") none true none,
      .load 0 ((createdBy 0 server.heap).map Content.entry),
      .create 0 .scoped (.text (c! "color: red;")) false, .create 0 .scoped (.text (c! "top: 0;")) false]
    sops.countP Op.isCreate ≤ 2 ∧ (∀ server, (ops server).countP Op.isCreate ≤ 2) ∧
    (∀ server mh data, Op.load mh data ∈ ops server → ∀ e ∈ data, ∃ c ∈ server.heap, c.origin = .created ∧
      e.key = c.key ∧ e.id = c.id) := by
  refine ⟨by decide, fun server => Nat.le_refl 2, ?_⟩
  intro server mh data hm e he
  simp only [List.mem_cons, reduceCtorEq, List.not_mem_nil, or_false, false_or, Op.load.injEq] at hm
  obtain ⟨-, rfl⟩ := hm
  obtain ⟨c, hc, rfl⟩ := List.mem_map.1 he
  obtain ⟨h1, h2⟩ := List.mem_filter.1 hc
  simp only [decide_eq_true_eq] at h2
  exact ⟨c, h1, h2.2, rfl, rfl⟩

end Manager
