import Verif.Conf.FoldLemmas
import Verif.Num.Props
import Verif.Key.Spec
import Verif.Key.Model
/-
Property theorems: C57 (cipher list), C59 (names), C60 (startup).
-/
namespace Conf
open Spec

/-! ### C57 -/

/-- A sequence of cipher options offered to the library: the answers and the final state. -/
def adds (c : Ctx) : List Bytes → Out (List Bool × Ctx)
  | [] => .ok ([], c)
  | x :: l => do
    let (b, c) ← tls_cipher_add c (x ++ [0])
    let (bs, c) ← adds c l
    return (b :: bs, c)

theorem adds_snoc (c : Ctx) (l : List Bytes) (x : Bytes) : adds c (l ++ [x]) = (do
    let (bs, c) ← adds c l
    let (b, c) ← tls_cipher_add c (x ++ [0])
    return (bs ++ [b], c)) := by
  induction l generalizing c with
  | nil =>
    simp only [List.nil_append, adds, Out.ok_bind, Out.pure_eq]
  | cons y l ih =>
    simp only [List.cons_append, adds]
    cases h : tls_cipher_add c (y ++ [0]) with
    | ub => rfl
    | ok p =>
      simp only [Out.ok_bind, ih]
      cases h2 : adds p.2 l with
      | ub => rfl
      | ok q =>
        simp only [Out.ok_bind]
        cases h3 : tls_cipher_add q.2 (x ++ [0]) with
        | ub => simp [h3]
        | ok r => simp [h3]

/-- Names of ciphers. -/
def known (l : List Bytes) : List Bytes := l.filter (fun x => (cipher x).isSome)

/-- **C57.** For every sequence of names offered from the initial state: exactly the known names are
accepted; the enabled suites are those of the known names, in order of their first appearance. -/
theorem c57_sequence (c : Ctx) (hd : c.cipher_default = true) (l : List Bytes) (hn : ∀ x ∈ l, NoNul x) :
    ∃ c', adds c l = .ok (l.map (fun x => (cipher x).isSome), c') ∧
      c'.cipher_enabled = (if l = [] then c.cipher_enabled else suites (known l)) := by
  suffices H : ∀ n, ∀ l : List Bytes, l.length = n → (∀ x ∈ l, NoNul x) →
      ∃ c', adds c l = .ok (l.map (fun x => (cipher x).isSome), c') ∧ c'.cipher_default = decide (l = []) ∧
      c'.cipher_enabled = (if l = [] then c.cipher_enabled else suites (known l)) by
    obtain ⟨c', h1, _, h2⟩ := H _ l rfl hn
    exact ⟨c', h1, h2⟩
  intro n
  induction n with
  | zero =>
    intro l hl _
    obtain rfl := List.eq_nil_of_length_eq_zero hl
    exact ⟨c, rfl, by simpa using hd, rfl⟩
  | succ n ih =>
    intro l hl hn
    rcases List.eq_nil_or_concat l with rfl | ⟨l, x, rfl⟩
    · simp at hl
    · rw [List.concat_eq_append] at *
      simp only [List.length_append, List.length_cons, List.length_nil] at hl
      obtain ⟨c', h1, h2, h3⟩ := ih l (by omega) (fun y hy => hn y (by simp [hy]))
      rw [adds_snoc, h1]
      simp only [Out.ok_bind]
      rw [cipher_add_eq c' x (hn x (by simp))]
      have hlist : (if c'.cipher_default = true then { c' with cipher_enabled := [], cipher_default := false } else c') =
          { c' with cipher_enabled := suites (known l), cipher_default := false } := by
        by_cases hl : l = []
        · subst hl
          have : c'.cipher_default = true := by simpa using h2
          simp [this, known, suites, firsts]
        · have h2 : c'.cipher_default = false := by simpa [hl] using h2
          have h3 : c'.cipher_enabled = suites (known l) := by simpa [hl] using h3
          rw [h2, ← h3]
          cases c'; simp_all
      simp only [hlist]
      cases h : cipher x with
      | none =>
        have : known (l ++ [x]) = known l := by simp [known, h]
        exact ⟨_, by simp [h]; rfl, by simp, by simp [this]⟩
      | some p =>
        obtain ⟨e, r⟩ := p
        have hk : known (l ++ [x]) = known l ++ [x] := by simp [known, h]
        have hpair : pair x = [e, r] := by simp [pair, h]
        simp only [suites_any _ x e r h]
        by_cases hm : x ∈ known l
        · exact ⟨_, by simp [h, hm]; rfl, by simp, by simp [hk, suites_snoc, hm]⟩
        · have hlen : (suites (known l)).length + 2 ≤ 16 := by
            have g1 := flatMap_length_le (firsts (known l))
            have g2 := suites_length (known l) (fun y hy => by simpa [known] using (List.mem_filter.mp hy).2)
            rw [suites_eq]; omega
          exact ⟨_, by simp [h, hm, hlen]; rfl, by simp, by simp [hk, suites_snoc, hm, hpair]⟩

/-- The hypotheses are met by the state the program starts with; an unknown and a repeated name. -/
example : (do
    let (bs, c) ← adds (initial b!"/").ctx [b!"AES_128_GCM_SHA256", b!"NULL", b!"CHACHA20_POLY1305_SHA256", b!"AES_128_GCM_SHA256"]
    return (bs, c.cipher_enabled)) = Out.ok ([true, false, true, true], [0xC02B, 0xC02F, 0xCCA9, 0xCCA8]) := by decide +kernel

theorem pairwise_firsts (l : List Bytes) (h : ∀ x ∈ l, (cipher x).isSome) :
    (l.Nodup) → (l.flatMap pair).Nodup := by
  intro hn
  induction l with
  | nil => simp
  | cons x l ih =>
    simp only [List.nodup_cons] at hn
    obtain ⟨⟨e, r⟩, hx⟩ := Option.isSome_iff_exists.mp (h x (by simp))
    have hp : pair x = [e, r] := by simp [pair, hx]
    have ih := ih (fun y hy => h y (by simp [hy])) hn.2
    have hne : e ≠ r := by
      have := cipher_mem x _ hx
      have hall : ∀ a ∈ cipherList, a.2.1 ≠ a.2.2 := by decide +kernel
      exact hall _ this
    have hout : ∀ s ∈ l.flatMap pair, s ≠ e ∧ s ≠ r := by
      intro s hs
      obtain ⟨y, hy, hsy⟩ := List.mem_flatMap.mp hs
      obtain ⟨⟨e', r'⟩, hy'⟩ := Option.isSome_iff_exists.mp (h y (by simp [hy]))
      have hp' : pair y = [e', r'] := by simp [pair, hy']
      rw [hp'] at hsy
      simp only [List.mem_cons, List.not_mem_nil, or_false] at hsy
      constructor
      · intro e1; subst e1
        have := cipher_inj hy' hx (by rcases hsy with h | h <;> simp [h])
        exact hn.1 (this ▸ hy)
      · intro e1; subst e1
        have := cipher_inj hy' hx (by rcases hsy with h | h <;> simp [h])
        exact hn.1 (this ▸ hy)
    rw [List.flatMap_cons, hp]
    simp only [List.cons_append, List.nil_append, List.nodup_cons, List.mem_cons, not_or]
    exact ⟨⟨hne, fun g => (hout e g).1 rfl⟩, fun g => (hout r g).2 rfl, ih⟩

/-- **C57.** Whatever is enabled has no duplicates and no more than 14 entries: the array of 16 is enough. -/
theorem c57_bounded (l : List Bytes) :
    (suites (known l)).Nodup ∧ (suites (known l)).length ≤ 14 ∧ defaultSuites.Nodup ∧ defaultSuites.length ≤ 14 := by
  have hk : ∀ x ∈ known l, (cipher x).isSome := fun y hy => by simpa [known] using (List.mem_filter.mp hy).2
  have h1 := flatMap_length_le (firsts (known l))
  have h2 := suites_length (known l) hk
  refine ⟨?_, by rw [suites_eq]; omega, by decide, by decide⟩
  rw [suites_eq]
  exact pairwise_firsts _ (fun x hx => hk x ((mem_firsts _ x).mp hx)) (firsts_nodup _)

/-- **C57.** Every suite that can be enabled is one the key process serves, with the hash and the
protection that belong to it. -/
theorem c57_served (l : List Bytes) : ∀ s ∈ suites l ++ defaultSuites,
    ∃ prf kind, (s, prf, kind) ∈ Key.Spec.suites ∧ Key.suiteOf s = some (prf, kind) := by
  intro s hs
  have key : ∀ a ∈ cipherList, ∀ s ∈ [a.2.1, a.2.2] ++ defaultSuites, s ∈ Key.Spec.suites.map (·.1) := by decide +kernel
  have serves : ∀ x ∈ Key.Spec.suites, Key.suiteOf x.1 = some x.2 := by decide +kernel
  have fin (h : s ∈ Key.Spec.suites.map (·.1)) :
      ∃ prf kind, (s, prf, kind) ∈ Key.Spec.suites ∧ Key.suiteOf s = some (prf, kind) := by
    obtain ⟨⟨a, b, c⟩, h1, rfl⟩ := List.mem_map.mp h
    exact ⟨b, c, h1, serves _ h1⟩
  apply fin
  rcases List.mem_append.mp hs with h | h
  · rw [suites_eq] at h
    obtain ⟨y, _, hsy⟩ := List.mem_flatMap.mp h
    cases hy : cipher y with
    | none => simp [pair, hy] at hsy
    | some p =>
      simp only [pair, hy] at hsy
      exact key _ (cipher_mem y p hy) s (List.mem_append.mpr (.inl hsy))
  · exact key (b!"CHACHA20_POLY1305_SHA256", 0xCCA9, 0xCCA8) (by decide +kernel) s (List.mem_append.mpr (.inr h))

/-- **C57 (deviation).** The library call refuses an unknown name, but the first such call still
discards the defaults. The program ends then (C60), so no session sees the empty list. -/
theorem c57_unknown_clears_defaults : ∃ (c : Ctx) (x : Bytes), NoNul x ∧ cipher x = none ∧ c.cipher_enabled = defaultSuites ∧
    ∃ c', tls_cipher_add c (x ++ [0]) = .ok (false, c') ∧ c'.cipher_enabled = [] :=
  ⟨{ (initial b!"/").ctx with cipher_enabled := defaultSuites }, b!"x", by decide, by decide, rfl, _, rfl, rfl⟩

/-! ### C59 -/

/-- **C59 (versions).** Setting a bound succeeds exactly for the three names, and otherwise changes nothing. -/
theorem c59_version (c : Ctx) (x : Bytes) (hx : NoNul x) :
    (∀ v, version x = some v → tls_version_setmin c (x ++ [0]) = .ok (true, { c with version_min := v }) ∧
      tls_version_setmax c (x ++ [0]) = .ok (true, { c with version_max := v })) ∧
    (version x = none → tls_version_setmin c (x ++ [0]) = .ok (false, c) ∧ tls_version_setmax c (x ++ [0]) = .ok (false, c)) := by
  rw [setmin_ok c x hx, setmax_ok c x hx]
  exact ⟨fun v h => by simp [h], fun h => by simp [h]⟩

/-- **C59 (curves).** A curve is added exactly for the names of curves; the other curves stay as they
were, except that the first call discards the defaults. -/
theorem c59_curve (x448 : Bool) (c : Ctx) (x : Bytes) (hx : NoNul x) :
    ∃ c', tls_ecdhe_add x448 c (x ++ [0]) = .ok ((curve x448 x).isSome, c') ∧
      (∀ k, c'.ecdhe_enabled.testBit k = ((!c.ecdhe_default && c.ecdhe_enabled.testBit k) || decide (curve x448 x = some k))) ∧
      { c' with ecdhe_enabled := c.ecdhe_enabled, ecdhe_default := c.ecdhe_default } = c := by
  rw [ecdhe_add_ok x448 c x hx]
  have bit (m j k : Nat) : (m ||| (1 <<< j)).testBit k = (m.testBit k || decide (j = k)) := by
    rw [Nat.testBit_or, Nat.testBit_shiftLeft]
    congr 1
    by_cases h : j = k
    · subst h; simp
    · by_cases h2 : j ≤ k
      · have : k - j ≠ 0 := by omega
        obtain ⟨n, hn⟩ := Nat.exists_eq_succ_of_ne_zero this
        simp [h, hn, Nat.testBit_succ]
      · simp [h, h2]
  cases h : curve x448 x with
  | none =>
    cases hd : c.ecdhe_default <;> exact ⟨_, rfl, by simp [hd], by cases c; simp_all⟩
  | some j =>
    have bit0 := bit 0 j
    cases hd : c.ecdhe_default
    · exact ⟨_, rfl, fun k => by simp [hd, -Nat.one_shiftLeft, bit], by cases c; simp_all⟩
    · exact ⟨_, rfl, fun k => by simpa [hd, -Nat.one_shiftLeft] using bit0 k, by cases c; simp_all⟩

/-- **C59.** A code has one name. -/
theorem c59_names_unique (x448 : Bool) (x y : Bytes) :
    (∀ v, version x = some v → version y = some v → x = y) ∧
    (∀ k, curve x448 x = some k → curve x448 y = some k → x = y) ∧
    (∀ e r e' r', cipher x = some (e, r) → cipher y = some (e', r') → (e = e' ∨ e = r' ∨ r = e' ∨ r = r') → x = y) := by
  refine ⟨fun v h1 h2 => ?_, fun k h1 h2 => ?_, fun e r e' r' h1 h2 h => cipher_inj h1 h2 h⟩
  · unfold version at h1 h2
    repeat' split at h1
    all_goals repeat' split at h2
    all_goals simp_all
    all_goals omega
  · unfold curve at h1 h2
    repeat' split at h1
    all_goals repeat' split at h2
    all_goals simp_all
    all_goals omega

/-- **C59 (printing).** The text for a curve is its name, or "unknown", which is no name. -/
theorem c59_curve_text (x448 : Bool) (k : Nat) :
    (∀ x, curve x448 x = some k → tls_ecdhe_str x448 k = x) ∧
    ((∀ x, curve x448 x ≠ some k) → tls_ecdhe_str x448 k = b!"unknown") ∧ curve x448 b!"unknown" = none := by
  refine ⟨fun x h => ?_, fun h => ?_, by cases x448 <;> decide⟩
  · rw [← curves_find, Option.map_eq_some_iff] at h
    obtain ⟨e, h1, rfl⟩ := h
    have h2 := List.find?_some h1
    have h3 := List.mem_of_find?_eq_some h1
    simp only [decide_eq_true_eq] at h2
    subst h2
    have hall : ∀ b : Bool, ∀ e ∈ tls_ecdhes b, tls_ecdhe_str b e.2 = e.1 := by decide +kernel
    exact hall x448 e h3
  · unfold tls_ecdhe_str
    cases hf : (tls_ecdhes x448).find? (fun e => e.2 == k) with
    | none => rfl
    | some e =>
      have h2 := List.find?_some hf
      have h3 := List.mem_of_find?_eq_some hf
      have hall : ∀ b : Bool, ∀ e ∈ tls_ecdhes b, curve b e.1 = some e.2 := by decide +kernel
      exact absurd (by rw [hall x448 e h3, show e.2 = k by simpa using h2]) (h e.1)

/-- **C59 (printing).** Different versions and different suites have different texts. -/
theorem c59_texts_distinct :
    (∀ x y v w, version x = some v → version y = some w → tls_version_str v = tls_version_str w → v = w) ∧
    (∀ x y e r e' r', cipher x = some (e, r) → cipher y = some (e', r') →
      ∀ s ∈ [e, r], ∀ t ∈ [e', r'], tls_cipher_str s = tls_cipher_str t → s = t) := by
  constructor
  · intro x y v w h1 h2
    have mem (x : Bytes) (v : Nat) (h : version x = some v) : v ∈ [0x0301, 0x0302, 0x0303] := by
      unfold version at h
      repeat' split at h
      all_goals simp_all
    have hall : ∀ v ∈ [0x0301, 0x0302, 0x0303], ∀ w ∈ [0x0301, 0x0302, 0x0303], tls_version_str v = tls_version_str w → v = w := by
      decide +kernel
    exact hall v (mem x v h1) w (mem y w h2)
  · intro x y e r e' r' h1 h2
    have hall : ∀ a ∈ cipherList, ∀ b ∈ cipherList, ∀ s ∈ [a.2.1, a.2.2], ∀ t ∈ [b.2.1, b.2.2],
        tls_cipher_str s = tls_cipher_str t → s = t := by decide +kernel
    exact hall _ (cipher_mem x _ h1) _ (cipher_mem y _ h2)

/-- **C59 (printing).** A code of no version or suite has a text that is not that of any. -/
theorem c59_unknown_codes (n : Nat) :
    ((∀ x, version x ≠ some n) → tls_version_str n = b!"unknown version") ∧
    ((∀ x e r, cipher x = some (e, r) → n ≠ e ∧ n ≠ r) → tls_cipher_str n = b!"unknown cipher") ∧
    (∀ x v, version x = some v → tls_version_str v ≠ b!"unknown version") ∧
    (∀ x e r, cipher x = some (e, r) → tls_cipher_str e ≠ b!"unknown cipher" ∧ tls_cipher_str r ≠ b!"unknown cipher") := by
  refine ⟨fun h => ?_, fun h => ?_, fun x v h => ?_, fun x e r h => ?_⟩
  · unfold tls_version_str
    cases hf : tls_versions.find? (fun e => e.2.1 == n) with
    | none => rfl
    | some e =>
      have h2 := List.find?_some hf
      have h3 := List.mem_of_find?_eq_some hf
      have hall : ∀ e ∈ tls_versions, version e.1 = some e.2.1 := by decide +kernel
      exact absurd (by rw [hall e h3, show e.2.1 = n by simpa using h2]) (h e.1)
  · unfold tls_cipher_str
    have hall : ∀ e ∈ tls_ciphers, cipher e.name = some (e.ecsuite, e.rsasuite) := by decide +kernel
    have : ∀ l : List Cipher, (∀ e ∈ l, n ≠ e.ecsuite ∧ n ≠ e.rsasuite) → cipherStrLoop n l = b!"unknown cipher" := by
      intro l hl
      induction l with
      | nil => rfl
      | cons a l ih =>
        have := hl a (by simp)
        rw [cipherStrLoop, if_neg (fun e => this.1 e.symm), if_neg (fun e => this.2 e.symm), ih (fun e he => hl e (by simp [he]))]
    exact this _ (fun e he => h _ _ _ (hall e he))
  · unfold version at h
    repeat' split at h
    all_goals simp_all
    all_goals subst_vars; decide
  · have hall : ∀ a ∈ cipherList, tls_cipher_str a.2.1 ≠ b!"unknown cipher" ∧ tls_cipher_str a.2.2 ≠ b!"unknown cipher" := by
      decide +kernel
    exact hall _ (cipher_mem x _ h)

/-- Cases of C59. -/
example : version b!"tls11" = some 0x0302 ∧ version b!"ssl3" = none ∧ curve true b!"x448" = some 30 ∧ curve false b!"x448" = none ∧
    cipher b!"AES_256_CBC_SHA" = some (0xC00A, 0xC014) ∧ tls_cipher_str 0xC014 = b!"RSA + ECDHE + AES256/CBC + SHA1" := by decide +kernel

/-! ### C60 -/

/-- What the wrapper is configured for, given the options and the command. -/
structure Serves (E : Env) (emptydir : Bytes) (opts : List Opt) (prog : List Bytes) (st : Started) : Prop where
  prog : st.prog = prog
  certs : st.opts.ctx.certfiles = Spec.certs opts
  anchor : st.opts.ctx.anchorfn = (values (c! 'a') opts).head?
  clientAuth : st.opts.ctx.tolerate_no_client_auth = false
  noRenegotiation : st.opts.ctx.no_renegotiation = true
  preference : st.opts.ctx.enforce_server_preferences = switch (c! 's') (c! 'S') true opts
  min : some st.opts.ctx.version_min = version ((last (c! 'm') opts).getD b!"tls12")
  max : some st.opts.ctx.version_max = version ((last (c! 'M') opts).getD b!"tls12")
  ciphers : st.opts.ctx.cipher_enabled = if values (c! 'c') opts = [] then defaultSuites else suites (values (c! 'c') opts)
  curves : ∀ k, st.opts.ctx.ecdhe_enabled.testBit k = true ↔
    ∃ v ∈ (if values (c! 'e') opts = [] then [b!"x25519", b!"secp256r1"] else values (c! 'e') opts), curve E.x448 v = some k
  delayed : st.opts.ctx.flagdelayedenc = switch (c! 'n') (c! 'N') false opts
  certuser : st.opts.userfromcert = last (c! 'U') opts
  oid : st.opts.ctx.oid = (last (c! 'U') opts).map (fun v => if v = b!"commonName" then [3, 85, 4, 3] else [9, 42, 134, 72, 134, 247, 13, 1, 9, 1])
  user : st.opts.user = last (c! 'u') opts
  jaildir : st.opts.ctx.jaildir = (last (c! 'J') opts).getD emptydir
  jailaccount : st.opts.ctx.jailaccount = last (c! 'j') opts
  timeout : Limit ((last (c! 't') opts).getD b!"60") st.timeout
  hstimeout : Limit ((last (c! 'T') opts).getD b!"30") st.hstimeout
  proxy : st.opts.ppin = true ↔ b!"1" ∈ values (c! 'p') opts
  verbosity : st.opts.log_level = Min.min (Spec.verbosity opts : Int) 4

/-- The command line is one the wrapper may serve. -/
def Good (E : Env) (args : List Bytes) (opts : List Opt) (prog : List Bytes) : Prop :=
  Reads args opts prog ∧ prog ≠ [] ∧ Valid E.x448 E.isDir E.isReg opts ∧ Allowed opts

theorem last_mem {c : Byte} {l : List Opt} {v : Bytes} (h : last c l = some v) : v ∈ values c l := List.mem_of_getLast? h

theorem last_none {c : Byte} {l : List Opt} : last c l = none ↔ values c l = [] := by simp [last]

theorem mask_bit (x448 : Bool) (l : List Bytes) (h : ∀ v ∈ l, (curve x448 v).isSome) (k : Nat) :
    (curveMask x448 l).testBit k = true ↔ ∃ v ∈ l, curve x448 v = some k := by
  have bit (m j k : Nat) : (m ||| (1 <<< j)).testBit k = (m.testBit k || decide (j = k)) := by
    rw [Nat.testBit_or, Nat.testBit_shiftLeft]
    congr 1
    by_cases h : j = k
    · subst h; simp
    · by_cases h2 : j ≤ k
      · have : k - j ≠ 0 := by omega
        obtain ⟨n, hn⟩ := Nat.exists_eq_succ_of_ne_zero this
        simp [h, hn, Nat.testBit_succ]
      · simp [h, h2]
  have gen : ∀ m, (l.foldl (fun m v => m ||| (1 <<< (curve x448 v).getD 0)) m).testBit k = true ↔
      m.testBit k = true ∨ ∃ v ∈ l, curve x448 v = some k := by
    induction l with
    | nil => intro m; simp
    | cons a l ih =>
      intro m
      obtain ⟨j, hj⟩ := Option.isSome_iff_exists.mp (h a (by simp))
      rw [List.foldl_cons, ih (fun v hv => h v (by simp [hv])), bit]
      simp only [hj, Option.getD_some, Bool.or_eq_true, decide_eq_true_eq, List.mem_cons, exists_eq_or_imp, Option.some.injEq]
      exact or_assoc
  rw [curveMask, gen]; simp

theorem serves_conf (E : Env) (d : Bytes) (opts : List Opt) (prog : List Bytes) (t ht : Int) (hv : OkOpts E opts)
    (h1 : Limit ((last (c! 't') opts).getD b!"60") t) (h2 : Limit ((last (c! 'T') opts).getD b!"30") ht) :
    Serves E d opts prog ⟨conf E d opts, prog, t, ht⟩ where
  prog := rfl
  certs := rfl
  anchor := rfl
  clientAuth := rfl
  noRenegotiation := rfl
  preference := rfl
  min := by
    cases h : last (c! 'm') opts with
    | none => simp [conf, h]; decide
    | some v =>
      obtain ⟨k, hk⟩ := Option.isSome_iff_exists.mp (hv.min v (last_mem h))
      simp [conf, h, hk]
  max := by
    cases h : last (c! 'M') opts with
    | none => simp [conf, h]; decide
    | some v =>
      obtain ⟨k, hk⟩ := Option.isSome_iff_exists.mp (hv.max v (last_mem h))
      simp [conf, h, hk]
  ciphers := rfl
  curves := by
    intro k
    by_cases h : values (c! 'e') opts = []
    · have : (1 <<< 29) ||| (1 <<< 23) = curveMask E.x448 [b!"x25519", b!"secp256r1"] := by cases E.x448 <;> decide
      simp only [conf, h, if_true]
      rw [this]
      exact mask_bit _ _ (by cases E.x448 <;> decide) k
    · simp only [conf, h, if_false]
      exact mask_bit _ _ hv.curves k
  delayed := rfl
  certuser := rfl
  oid := by
    cases h : last (c! 'U') opts with
    | none => simp [conf, h]
    | some v => rcases hv.certuser v (last_mem h) with rfl | rfl <;> simp [conf, h, oidOf]
  user := rfl
  jaildir := rfl
  jailaccount := rfl
  timeout := h1
  hstimeout := h2
  proxy := by simp [conf]
  verbosity := rfl

theorem timeout_ok (x : Bytes) (hx : NoNul x) :
    (∀ v, Limit x v → timeout_parse x = .ok v) ∧ ((¬ ∃ v, Limit x v) → timeout_parse x = .exit 100) := by
  have hll0 : IsLL 1 := by unfold IsLL llmin llmax; omega
  have hll1 : IsLL 86400 := by unfold IsLL llmin llmax; omega
  constructor
  · intro v hv
    have := (Num.c01_parsenum_accepts x [] hx 1 86400 v hll0 hll1).mpr hv
    simp only [cstr] at this
    simp [timeout_parse, this, Res.lift, bind, Res.bind, pure]
  · intro h
    have := Num.c01_parsenum_rejects x [] hx 1 86400 h
    simp only [cstr] at this
    simp [timeout_parse, this, Res.lift, bind, Res.bind]

theorem value_noNul {l : List Opt} (hk : ∀ x ∈ l, Known x) {c : Byte} {v : Bytes} (h : v ∈ values c l) : NoNul v := by
  obtain ⟨x, hx, hv⟩ := List.mem_filterMap.mp h
  cases x with
  | flag _ => simp at hv
  | arg d w =>
    simp only [Option.ite_none_right_eq_some, Option.some.injEq] at hv
    exact hv.2 ▸ (hk _ hx).2

theorem start_eq (E : Env) (d a : Bytes) (args : List Bytes) : start E d (a :: args) = (do
    let (o, prog) ← options E args (conf E d [])
    if prog = [] then .exit 100
    else if o.ctx.certfiles = [] then .exit 100
    else if o.userfromcert.isSome ∧ o.ctx.anchorfn.isNone then .exit 100
    else if o.userfromcert.isSome ∧ o.ctx.flagdelayedenc = true then .exit 100
    else
      let timeout ← timeout_parse o.timeoutstr
      let hstimeout ← timeout_parse o.hstimeoutstr
      return ⟨o, prog, timeout, hstimeout⟩) := by
  unfold start
  simp only [(defaults_conf E d).1, Res.lift, bind, Res.bind]
  rw [(defaults_conf E d).2]

/-- **C60.** A command line that means options and a command with a certificate source, an anchor for a
certificate user, and so on, starts the wrapper with what those options mean. -/
theorem c60_starts (E : Env) (emptydir a : Bytes) (args : List Bytes) (ha : ∀ x ∈ args, NoNul x)
    (opts : List Opt) (prog : List Bytes) (h : Good E args opts prog) :
    ∃ st, start E emptydir (a :: args) = .ok st ∧ Serves E emptydir opts prog st := by
  obtain ⟨hr, hp, hv, hall⟩ := h
  have hk := reads_known hr ha
  obtain ⟨t, ht⟩ := hall.timeout
  obtain ⟨ht', hht⟩ := hall.hstimeout
  refine ⟨⟨conf E emptydir opts, prog, t, ht'⟩, ?_, serves_conf E emptydir opts prog t ht' hv ht hht⟩
  rw [start_eq, options_reads hr, (fold_conf E emptydir opts hk).1 hv]
  simp only [bind, Res.bind]
  have hn1 : NoNul ((last (c! 't') opts).getD b!"60") := by
    cases e : last (c! 't') opts with
    | none => decide
    | some v => exact value_noNul hk (last_mem e)
  have hn2 : NoNul ((last (c! 'T') opts).getD b!"30") := by
    cases e : last (c! 'T') opts with
    | none => decide
    | some v => exact value_noNul hk (last_mem e)
  have hc : (conf E emptydir opts).ctx.certfiles ≠ [] := by
    intro g
    have g : certs opts = [] := g
    have := certs_length opts
    rw [g] at this
    rcases hall.cert with h | h <;> exact h (List.length_eq_zero_iff.mp (by simp at this; omega))
  have hu : ¬ ((conf E emptydir opts).userfromcert.isSome ∧ (conf E emptydir opts).ctx.anchorfn.isNone) := by
    rintro ⟨g1, g2⟩
    have g1 : (last (c! 'U') opts).isSome := g1
    have g2 : ((values (c! 'a') opts).head?).isNone := g2
    have hne : values (c! 'U') opts ≠ [] := fun e => by rw [last_none.mpr e] at g1; simp at g1
    exact hall.userNeedsAnchor hne (by simpa using g2)
  have hd : ¬ ((conf E emptydir opts).userfromcert.isSome ∧ (conf E emptydir opts).ctx.flagdelayedenc = true) := by
    rintro ⟨g1, g2⟩
    have g1 : (last (c! 'U') opts).isSome := g1
    have g2 : switch (c! 'n') (c! 'N') false opts = true := g2
    have hne : values (c! 'U') opts ≠ [] := fun e => by rw [last_none.mpr e] at g1; simp at g1
    rw [hall.userNotDelayed hne] at g2; simp at g2
  rw [if_neg hp, if_neg hc, if_neg hu, if_neg hd]
  have e1 : timeout_parse (conf E emptydir opts).timeoutstr = .ok t := (timeout_ok _ hn1).1 t ht
  have e2 : timeout_parse (conf E emptydir opts).hstimeoutstr = .ok ht' := (timeout_ok _ hn2).1 ht' hht
  simp only [e1, e2]
  rfl

/-- **C60.** Every other command line ends the program with status 100. -/
theorem c60_refuses (E : Env) (emptydir : Bytes) (argv : List Bytes) (ha : ∀ x ∈ argv, NoNul x)
    (h : ¬ ∃ a args opts prog, argv = a :: args ∧ Good E args opts prog) : start E emptydir argv = .exit 100 := by
  cases argv with
  | nil => rfl
  | cons a args =>
    have ha : ∀ x ∈ args, NoNul x := fun x hx => ha x (by simp [hx])
    rw [start_eq]
    by_cases hr : ∃ opts prog, Reads args opts prog
    · obtain ⟨opts, prog, hr⟩ := hr
      have hk := reads_known hr ha
      rw [options_reads hr]
      by_cases hv : OkOpts E opts
      · rw [(fold_conf E emptydir opts hk).1 hv]
        simp only [bind, Res.bind]
        by_cases hp : prog = []
        · rw [if_pos hp]
        rw [if_neg hp]
        split
        · rfl
        rename_i hc
        split
        · rfl
        rename_i hu
        split
        · rfl
        rename_i hd
        have hn1 : NoNul ((last (c! 't') opts).getD b!"60") := by
          cases e : last (c! 't') opts with
          | none => decide
          | some v => exact value_noNul hk (last_mem e)
        have hn2 : NoNul ((last (c! 'T') opts).getD b!"30") := by
          cases e : last (c! 'T') opts with
          | none => decide
          | some v => exact value_noNul hk (last_mem e)
        by_cases ht : ∃ v, Limit ((last (c! 't') opts).getD b!"60") v
        · obtain ⟨t, ht⟩ := ht
          have e1 : timeout_parse (conf E emptydir opts).timeoutstr = .ok t := (timeout_ok _ hn1).1 t ht
          by_cases hh : ∃ v, Limit ((last (c! 'T') opts).getD b!"30") v
          · refine absurd ⟨a, args, opts, prog, rfl, hr, hp, hv, ?_, ?_, ?_, ⟨t, ht⟩, hh⟩ h
            · have hc : certs opts ≠ [] := hc
              have := certs_length opts
              have hpos := List.length_pos_iff.mpr hc
              by_cases g : values (c! 'd') opts = []
              · right; intro g2; rw [g, g2] at this; simp only [List.length_nil] at this; omega
              · exact .inl g
            · intro hne g
              refine hu ⟨?_, ?_⟩
              · change (last (c! 'U') opts).isSome
                cases e : last (c! 'U') opts with
                | none => exact absurd (last_none.mp e) hne
                | some _ => rfl
              · change ((values (c! 'a') opts).head?).isNone
                simp [g]
            · intro hne
              refine Bool.eq_false_iff.mpr fun g => hd ⟨?_, g⟩
              change (last (c! 'U') opts).isSome
              cases e : last (c! 'U') opts with
              | none => exact absurd (last_none.mp e) hne
              | some _ => rfl
          · have e2 : timeout_parse (conf E emptydir opts).hstimeoutstr = .exit 100 := (timeout_ok _ hn2).2 hh
            simp only [e1, e2]
        · have e1 : timeout_parse (conf E emptydir opts).timeoutstr = .exit 100 := (timeout_ok _ hn1).2 ht
          simp only [e1]
      · rw [(fold_conf E emptydir opts hk).2 hv]; rfl
    · rw [options_bad (fun o l hl => fold_tame E o l hl) args.length (Nat.le_refl _) hr ha]; rfl

theorem word_unique {w : Bytes} {args : List Bytes} {o1 o2 : List Opt} {a1 a2 : List Bytes} (h1 : Word w args o1 a1)
    (h2 : Word w args o2 a2) : o1 = o2 ∧ a1 = a2 := by
  induction h1 generalizing o2 a2 with
  | done => cases h2; exact ⟨rfl, rfl⟩
  | flag hc _ ih =>
    cases h2 with
    | flag _ h => obtain ⟨rfl, rfl⟩ := ih h; exact ⟨rfl, rfl⟩
    | attached hd _ => exact absurd hc (disjoint _ hd)
    | separate hd => exact absurd hc (disjoint _ hd)
  | attached hc hw =>
    cases h2 with
    | flag hd _ => exact absurd hd (disjoint _ hc)
    | attached _ _ => exact ⟨rfl, rfl⟩
    | separate _ => exact absurd rfl hw
  | separate hc =>
    cases h2 with
    | flag hd _ => exact absurd hd (disjoint _ hc)
    | attached _ hw => exact absurd rfl hw
    | separate _ => exact ⟨rfl, rfl⟩

/-- **C60.** A command line means one list of options and one command. -/
theorem c60_reads_unique {args : List Bytes} {o1 o2 : List Opt} {p1 p2 : List Bytes} (h1 : Reads args o1 p1) (h2 : Reads args o2 p2) :
    o1 = o2 ∧ p1 = p2 := by
  induction h1 generalizing o2 p2 with
  | empty => cases h2; exact ⟨rfl, rfl⟩
  | prog h =>
    cases h2 with
    | prog _ => exact ⟨rfl, rfl⟩
    | dash => exact absurd rfl h
    | dashes => exact absurd rfl h
    | word _ _ _ _ => exact absurd rfl h
  | dash =>
    cases h2 with
    | prog h => exact absurd rfl h
    | dash => exact ⟨rfl, rfl⟩
    | word h _ _ _ => exact absurd rfl h
  | dashes =>
    cases h2 with
    | prog h => exact absurd rfl h
    | dashes => exact ⟨rfl, rfl⟩
    | word _ h _ _ => exact absurd rfl h
  | word hw hd h _ ih =>
    cases h2 with
    | prog h => exact absurd rfl h
    | dash => exact absurd rfl hw
    | dashes => exact absurd rfl hd
    | word _ _ h' hr =>
      obtain ⟨rfl, rfl⟩ := word_unique h h'
      obtain ⟨rfl, rfl⟩ := ih hr
      exact ⟨rfl, rfl⟩

/-- **C60.** In one statement: the wrapper goes on exactly for the good command lines. -/
theorem c60_starts_iff (E : Env) (emptydir a : Bytes) (args : List Bytes) (ha : ∀ x ∈ args, NoNul x) (h0 : NoNul a) :
    (∃ st, start E emptydir (a :: args) = .ok st) ↔ ∃ opts prog, Good E args opts prog := by
  constructor
  · rintro ⟨st, h⟩
    refine Classical.byContradiction fun hn => ?_
    rw [c60_refuses E emptydir (a :: args) (by intro x hx; exact (List.mem_cons.mp hx).elim (fun e => e ▸ h0) (ha x))
      (fun ⟨_, _, opts, prog, e, hg⟩ => by cases e; exact hn ⟨opts, prog, hg⟩)] at h
    cases h
  · rintro ⟨opts, prog, hg⟩
    obtain ⟨st, h, _⟩ := c60_starts E emptydir a args ha opts prog hg
    exact ⟨st, h⟩

/-- A file system with one certificate directory, a certificate and an anchor. -/
def sampleEnv : Env := ⟨true, fun x => if x = b!"/certs" then some .dir else if x = b!"/c.pem" ∨ x = b!"/ca.pem" then some .reg else none⟩

/-- Something about the configuration, if there is one. -/
def Res.see {α β} (f : α → β) : Res α → Option β
  | .ok a => some (f a)
  | _ => none

theorem see_ok {α β} {f : α → β} {r : Res α} {b : β} (h : r.see f = some b) : ∃ a, r = .ok a ∧ f a = b := by
  cases r with
  | ok a => exact ⟨a, rfl, by simpa [Res.see] using h⟩
  | exit s => simp [Res.see] at h
  | ub => simp [Res.see] at h

/-- A command line with clustered, attached and separate options. -/
example : (start sampleEnv b!"/empty" [b!"tlswrapper", b!"-vvd/certs", b!"-f", b!"/c.pem", b!"-a/ca.pem", b!"-UcommonName",
      b!"-mtls11", b!"-c", b!"AES_128_GCM_SHA256", b!"-t3600", b!"--", b!"-prog", b!"x"]).see (fun st : Started =>
      decide (st.prog = [b!"-prog", b!"x"]) && decide (st.opts.ctx.certfiles = [(b!"/certs", true), (b!"/c.pem", false)]) &&
      decide (st.opts.ctx.cipher_enabled = [0xC02B, 0xC02F]) && decide (st.timeout = 3600) && decide (st.hstimeout = 30) &&
      decide (st.opts.ctx.version_min = 0x0302) && decide (st.opts.userfromcert = some b!"commonName") &&
      decide (st.opts.log_level = 3)) = some true := by decide +kernel

/-- The hypotheses of `c60_starts` are met. -/
example : Good sampleEnv [b!"-sd/certs", b!"prog"] [.flag (c! 's'), .arg (c! 'd') b!"/certs"] [b!"prog"] := by
  refine ⟨?_, by simp, ?_, ?_⟩
  · have h2 : Word b!"sd/certs" [b!"prog"] [.flag (c! 's'), .arg (c! 'd') b!"/certs"] [b!"prog"] :=
      .flag (by decide) (.attached (by decide) (by decide))
    exact Reads.word (w := b!"sd/certs") (opts' := []) (by decide) (by decide) h2 (.prog (by decide))
  · refine ⟨?_, ?_, ?_, ?_, ?_, ?_, ?_, ?_, ?_, ?_, ?_⟩ <;> simp [values]
    rfl
  · refine ⟨?_, ?_, ?_, ?_, ?_⟩
    · simp [values]
    · simp [values]
    · simp [values]
    · exact ⟨60, .plain (ds := b!"60") ⟨by decide, by decide, by decide⟩, by decide, by decide⟩
    · exact ⟨30, .plain (ds := b!"30") ⟨by decide, by decide, by decide⟩, by decide, by decide⟩

/-- Refused: no certificate; certificate user without anchor; with delayed encryption; five sources;
a time limit of 0; no command; an unknown option. -/
example : ∀ argv ∈ [[b!"w", b!"prog"], [b!"w", b!"-d/certs", b!"-UcommonName", b!"prog"],
    [b!"w", b!"-d/certs", b!"-UcommonName", b!"-a/ca.pem", b!"-n", b!"prog"],
    [b!"w", b!"-d/certs", b!"-d/certs", b!"-d/certs", b!"-d/certs", b!"-f/c.pem", b!"prog"],
    [b!"w", b!"-d/certs", b!"-t0", b!"prog"], [b!"w", b!"-d/certs"], [b!"w", b!"-d/certs", b!"-x", b!"prog"]],
    start sampleEnv b!"/empty" argv = .exit 100 := by decide +kernel

/-- **C60 (remark).** Turning the proxy protocol off again with `-p 0` has no effect after `-p 1`. -/
theorem c60_proxy_stays_on : ∃ st, start sampleEnv b!"/" [b!"w", b!"-f/c.pem", b!"-p1", b!"-p0", b!"prog"] = .ok st ∧ st.opts.ppin = true :=
  see_ok (f := fun st : Started => st.opts.ppin) (by decide +kernel)

/-- **C60 (remark).** A lowest version above the highest is not refused. -/
theorem c60_versions_not_compared : ∃ st, start sampleEnv b!"/" [b!"w", b!"-f/c.pem", b!"-mtls12", b!"-Mtls10", b!"prog"] = .ok st ∧
    st.opts.ctx.version_min > st.opts.ctx.version_max := by
  obtain ⟨st, h, g⟩ := see_ok (f := fun st : Started => decide (st.opts.ctx.version_min > st.opts.ctx.version_max)) (b := true)
    (r := start sampleEnv b!"/" [b!"w", b!"-f/c.pem", b!"-mtls12", b!"-Mtls10", b!"prog"]) (by decide +kernel)
  exact ⟨st, h, by simpa using g⟩

end Conf
