import Verif.Conf.Profile
import Verif.Conf.Props
import Verif.Conf.ChooseProps
import Verif.Crt.FileProps
/-
C81: the TLS engine is set up as the command line says; what needs a secret is done by the key process; and
with an anchor file, clients are checked against the certificates of that file.
-/
namespace Conf
open Conf.Spec Path.Spec

/-! ### Specification -/

/-- The engine as the options ask for it, with these trust anchors. -/
structure Configured (x448 : Bool) (opts : List Opt) (anchors : List Crt.Anchor) (e : Server) : Prop where
  min : some e.version_min = version ((last (c! 'm') opts).getD b!"tls12")
  max : some e.version_max = version ((last (c! 'M') opts).getD b!"tls12")
  suites : e.suites = if values (c! 'c') opts = [] then defaultSuites else suites (values (c! 'c') opts)
  curves : ∀ k, e.curves.testBit k = true ↔
    ∃ v ∈ (if values (c! 'e') opts = [] then [b!"x25519", b!"secp256r1"] else values (c! 'e') opts), curve x448 v = some k
  preference : e.enforce_server_preferences = switch (c! 's') (c! 'S') true opts
  noRenegotiation : e.no_renegotiation = true
  /-- MD5, SHA-1, SHA-256, SHA-384 and SHA-512 are there for the handshake -/
  hashes : ∀ h, h ∈ e.hashes ↔ h ∈ [1, 2, 4, 5, 6]
  /-- without anchors clients are not asked for certificates -/
  unasked : anchors = [] → e.x509 = none ∧ e.anchorNames = []
  /-- with anchors a chain to one of them is asked for and required -/
  asked : anchors ≠ [] → ∃ m, e.x509 = some m ∧ m.anchors = anchors ∧ e.anchorNames = anchors ∧ e.tolerate_no_client_auth = false ∧
    m.field.map (·.1) = (last (c! 'U') opts).map (fun v => if v = b!"commonName" then [3, 85, 4, 3] else [9, 42, 134, 72, 134, 247, 13, 1, 9, 1]) ∧
    (∀ h, h ∈ m.hashes ↔ h = 4 ∨ h = 5 ∨ h = 6) ∧ (∀ f, m.field = some f → f.2 = 256) ∧ m.rsa = .bearssl ∧ m.ecdsa = .bearssl ∧ e.rsavrfy = .bearssl ∧ e.ecdsavrfy = .bearssl
  ready : e.reset = true ∧ e.buffer = some ((16384 + 325) + (16384 + 85), true) ∧ e.entropy ≠ []

/-- The record protection of a suite (the numbers of the IANA registry). -/
def protection (e : Server) (suite : Nat) : Impl :=
  if suite ∈ [0xCCA8, 0xCCA9] then e.chapol
  else if suite ∈ [0xC02B, 0xC02C, 0xC02F, 0xC030] then e.gcm
  else if suite ∈ [0xC009, 0xC00A, 0xC013, 0xC014, 0xC023, 0xC024, 0xC027, 0xC028] then e.cbc
  else .unset

/-- Everything that needs a private key, a shared secret or a session key is left to the key process. -/
structure Delegated (e : Server) : Prop where
  sign : e.sign = .pipe
  mulgen : e.mulgen = .pipe
  mul : e.mul = .pipe
  prf : e.prf10 = .pipe ∧ e.prf_sha256 = .pipe ∧ e.prf_sha384 = .pipe
  records : ∀ s ∈ e.suites, protection e s = .pipe

/-! ### Proofs -/

theorem suite_known (names : List Bytes) : ∀ s ∈ suites names, s ∈ [0xCCA8, 0xCCA9, 0xC02B, 0xC02C, 0xC02F, 0xC030] ++
    [0xC009, 0xC00A, 0xC013, 0xC014, 0xC023, 0xC024, 0xC027, 0xC028] := by
  intro s hs
  unfold suites at hs
  rw [List.mem_flatMap] at hs
  obtain ⟨x, -, hx⟩ := hs
  unfold cipher at hx
  split at hx
  · rename_i e r h
    repeat' (split at h)
    all_goals first
      | (cases h; simp only [List.mem_cons, List.not_mem_nil, or_false] at hx; rcases hx with rfl | rfl <;> decide)
      | cases h
  · cases hx

theorem suites_room (names : List Bytes) : (suites names).length ≤ 48 := by
  -- at most seven of the names mean something, and none is there twice
  have key : ∀ l : List Bytes, l.Nodup → ((l.flatMap (fun x => match cipher x with | some (e, r) => [e, r] | none => [])).length ≤
      2 * (l.filter (fun x => (cipher x).isSome)).length) := by
    intro l _
    induction l with
    | nil => simp
    | cons x l ih =>
      rename_i h
      have := ih (List.nodup_cons.mp h).2
      simp only [List.flatMap_cons, List.length_append, List.filter_cons]
      cases cipher x with
      | none => simpa using this
      | some q => simp only [List.length_cons, List.length_nil, Option.isSome_some, if_true]; omega
  have h2 : ((firsts names).filter (fun x => (cipher x).isSome)).length ≤
      [b!"CHACHA20_POLY1305_SHA256", b!"AES_256_GCM_SHA384", b!"AES_128_GCM_SHA256", b!"AES_256_CBC_SHA384", b!"AES_128_CBC_SHA256",
        b!"AES_256_CBC_SHA", b!"AES_128_CBC_SHA"].length := by
    apply List.Nodup.length_le_of_subset ((firsts_nodup names).filter _)
    intro x hx
    rw [List.mem_filter] at hx
    have := hx.2
    unfold cipher at this
    repeat' (split at this)
    all_goals first
      | (rename_i h; subst h; simp)
      | cases this
  have h3 := key (firsts names) (firsts_nodup names)
  simp only [List.length_cons, List.length_nil] at h2
  exact Nat.le_trans h3 (by omega)

/-- C81 (the engine): what a wrapper started with this command line sets up, given its trust anchors. -/
theorem c81_engine (E : Env) (emptydir a : Bytes) (args : List Bytes) (ha : ∀ x ∈ args, NoNul x)
    (opts : List Opt) (prog : List Bytes) (h : Good E args opts prog) (anchors : List Crt.Anchor) (seed : Bytes) :
    ∃ st, start E emptydir (a :: args) = .ok st ∧ Configured E.x448 opts anchors (tls_profile st.opts.ctx anchors seed) ∧
      Delegated (tls_profile st.opts.ctx anchors seed) := by
  obtain ⟨st, hst, S⟩ := c60_starts E emptydir a args ha opts prog h
  have hlen : ¬ st.opts.ctx.cipher_enabled.length > 48 := by
    rw [S.ciphers]
    split
    · decide
    · have := suites_room (values (c! 'c') opts); omega
  have hs : ∀ s ∈ st.opts.ctx.cipher_enabled, s ∈ [0xCCA8, 0xCCA9, 0xC02B, 0xC02C, 0xC02F, 0xC030] ++
      [0xC009, 0xC00A, 0xC013, 0xC014, 0xC023, 0xC024, 0xC027, 0xC028] := by
    rw [S.ciphers]
    split
    · decide
    · exact suite_known _
  have hp : ∀ (e : Server), e.chapol = .pipe → e.gcm = .pipe → e.cbc = .pipe → ∀ s ∈ st.opts.ctx.cipher_enabled, protection e s = .pipe := by
    intro e h1 h2 h3 s hm
    have := hs s hm
    simp only [List.mem_append, List.mem_cons, List.not_mem_nil, or_false] at this
    unfold protection
    rw [h1, h2, h3]
    rcases this with (h | h | h | h | h | h) | (h | h | h | h | h | h | h | h) <;> subst h <;> decide
  refine ⟨st, hst, ?_⟩
  unfold tls_profile Server.set_suites
  simp only [hlen, if_false]
  unfold clientAuth
  cases anchors with
  | nil =>
    simp only [List.length_nil, Nat.lt_irrefl, gt_iff_lt, if_false]
    refine ⟨⟨S.min, S.max, S.ciphers, S.curves, S.preference, S.noRenegotiation, fun _ => Iff.rfl, fun _ => ⟨rfl, rfl⟩, fun h => absurd rfl h, ⟨rfl, rfl, by
      simp [Server.server_reset, Server.inject_entropy]⟩⟩, ⟨rfl, rfl, rfl, ⟨rfl, rfl, rfl⟩, hp _ rfl rfl rfl⟩⟩
  | cons x l =>
    simp only [List.length_cons, Nat.zero_lt_succ, gt_iff_lt, if_true]
    refine ⟨⟨S.min, S.max, S.ciphers, S.curves, S.preference, S.noRenegotiation, fun _ => Iff.rfl, (by intro h; cases h), fun _ => ?_, ⟨rfl, rfl, by
      simp [Server.server_reset, Server.inject_entropy]⟩⟩, ⟨rfl, rfl, rfl, ⟨rfl, rfl, rfl⟩, hp _ rfl rfl rfl⟩⟩
    have ho := S.oid
    cases e : st.opts.ctx.oid with
    | none =>
      rw [e] at ho
      refine ⟨_, rfl, rfl, rfl, S.clientAuth, ho, ?_, ?_, rfl, rfl, rfl, rfl⟩
      · simp [sha256_ID, sha384_ID, sha512_ID]
      · rintro f ⟨⟩; try rfl
    | some o =>
      rw [e] at ho
      refine ⟨_, rfl, rfl, rfl, S.clientAuth, ho, ?_, ?_, rfl, rfl, rfl, rfl⟩
      · simp [sha256_ID, sha384_ID, sha512_ID]
      · rintro f ⟨⟩; try rfl

/-- Loading the anchors is like asking for a certificate. -/
theorem load_eq {γ : Type} (allocOk : Nat → Bool) (parse : Bytes → Bytes → Option γ) (f : Bytes) (hf : NoNul f) :
    loadAnchors allocOk parse f = Key.Net.getcert allocOk parse (undot (collapse f)) := by
  obtain ⟨junk, -, hp⟩ := Path.c11_exact f [] hf
  have hp : Path.fixpath (f ++ [0]) = .ok (cstr (undot (collapse f)) (junk ++ [])) := by simpa [cstr] using hp
  have hn := noNul_fix f hf
  have ht : (cstr (undot (collapse f)) (junk ++ [])).takeWhile (· ≠ 0) = undot (collapse f) := by
    unfold cstr
    rw [List.takeWhile_append, Key.takeWhile_noNul _ (fun hm => hn 0 hm rfl)]
    simp
  unfold loadAnchors Key.Net.getcert
  rw [hp]
  simp only [ht]
  rfl

open Key Crt in
/-- C81 (the anchors): with an anchor file made of PEM items, the wrapper ends, or its engine's trust anchors are those of the file's
certificates, one for each and in order, and there is at least one. If the certificates are usable and memory suffices, it does not end. -/
theorem c81_anchors {κ : Type} (D : Bytes → List Push) (b64 : List Bytes → Bytes) (x509 : Bytes → X509) (hX : Small x509) (ans : List Bool)
    (K : Skey κ) (hK : Sound K) (br : Nat → κ → Byte → Bytes → Out Bytes)
    (p : P) (hp : Lawful p) (hsign : p.doSign = Crt.sign D K br) (ld : LoadEnv) (hld : ld ∈ p.loads) (loads : List LoadEnv)
    (certfn : Bytes) (hc : certfn.length = 1024) (pem : Pems) (c : Ctx) (f : Bytes) (hcf : c.anchorfn = some f) (hf : f.length < 1024) (h0 : NoNul f)
    (allocOk : Nat → Bool) (halloc : ∀ n, allocOk n = true) (nc : Option Bytes × Pem.Ctx)
    (hload : Pem.load p.cipher pem.nonce ld.key (ld.env (undot (collapse f))) = .ok (some nc))
    (d : Bytes) (hd : content (ld.env (undot (collapse f))) = some d)
    (items : List Pem.Item) (hok : ∀ it ∈ items, it.Ok) (hu : Pem.usable d = items.flatMap Pem.Item.lines)
    (hpub : ReadsPem D b64 (items.filter Pem.Item.isCert)) (hsec : ReadsPem D b64 (items.filter (fun it => !it.isCert)))
    (hb : total (D (certPart items)) < 2 ^ 60) (seed : Bytes) :
    ∃ r : Option Server,
      (∀ o i n, Net.At o (frame (certPart items) ++ i) n →
        Net.Go (setup allocOk (Crt.parse D x509 ans) c seed) n fun e n => e = r ∧ Net.At (o ++ frame (undot (collapse f) ++ [0])) i n) ∧
      Continues p.cipher ld loads certfn pem (frame (undot (collapse f) ++ [0])) (frame (certPart items))
        [.got (undot (collapse f) ++ [0]), .load (undot (collapse f)) (some d), .sent (certPart items)] (some (otherPart items)) ∧
      (∀ e, r = some e → ∃ anchors, anchors ≠ [] ∧ e = tls_profile c anchors seed ∧
        Each (fun d a => Usable (x509 d) a) (Crt.certs (blocks b64 items)) anchors) ∧
      (Crt.certs (blocks b64 items) ≠ [] → (Crt.certs (blocks b64 items)).length ≤ 16 → (∀ d ∈ Crt.certs (blocks b64 items), ∃ a, Usable (x509 d) a) →
        Plenty (budget x509 (D (certPart items)) (blocks b64 (items.filter Pem.Item.isCert))) ans → r ≠ none) := by
  have hid := Path.c11_idempotent f
  have hl := Path.c11_length f
  obtain ⟨r, g1, g2, g3, g4, g5, -⟩ := c78_file D b64 x509 hX ans K hK br p hp hsign ld hld loads certfn hc pem (undot (collapse f)) (by omega)
    (fun hm => noNul_fix f h0 0 hm rfl) allocOk halloc nc (by rw [hid]; exact hload) d (by rw [hid]; exact hd) items hok hu hpub hsec hb
  rw [hid] at g5
  refine ⟨r.map (fun q => tls_profile c q.ta seed), ?_, g5, ?_, ?_⟩
  · intro o i n h
    unfold setup
    rw [hcf]
    simp only
    refine Net.Go.bind ?_
    rw [load_eq _ _ _ h0]
    refine (g1 o i n h).mono ?_
    rintro a n ⟨rfl, h2⟩
    cases a with
    | none => exact ⟨rfl, h2⟩
    | some q => exact ⟨rfl, h2⟩
  · intro e he
    cases r with
    | none => cases he
    | some q =>
      simp only [Option.map_some, Option.some.injEq] at he
      obtain ⟨e1, e2, e3, e4, e5⟩ := g3 q rfl
      refine ⟨q.ta, ?_, he.symm, e1 ▸ e4⟩
      intro hnil
      rw [hnil] at e4
      generalize hq : q.crt = l at e4 e2
      cases e4
      exact e2 rfl
  · intro h1 h2 h3 h4 h5
    exact g4 h1 h2 h3 h4 (by simpa using h5)

/-- BearSSL's contract: a handshake completes with the client's chain `ch`. Without a validation engine the client is not asked; with
one, no chain is accepted only if that is tolerated, and a chain only if it is verified against the anchors. -/
def Authenticates (Completes : Server → Option (List Bytes) → Prop) (Verified : List Crt.Anchor → List Bytes → Prop) : Prop :=
  ∀ e ch, Completes e ch → (e.x509 = none → ch = none) ∧
    ∀ m, e.x509 = some m → (ch = none → e.tolerate_no_client_auth = true) ∧ ∀ c, ch = some c → Verified m.anchors c

/-- C81 (the clients): with trust anchors, only a client with a chain verified against them gets a session; without, no client is asked. -/
theorem c81_clients (Completes : Server → Option (List Bytes) → Prop) (Verified : List Crt.Anchor → List Bytes → Prop)
    (hA : Authenticates Completes Verified) (E : Env) (emptydir a : Bytes) (args : List Bytes) (ha : ∀ x ∈ args, NoNul x)
    (opts : List Opt) (prog : List Bytes) (h : Good E args opts prog) (anchors : List Crt.Anchor) (seed : Bytes) (st : Started)
    (hst : start E emptydir (a :: args) = .ok st) (ch : Option (List Bytes)) (hc : Completes (tls_profile st.opts.ctx anchors seed) ch) :
    (anchors ≠ [] → ∃ c, ch = some c ∧ Verified anchors c) ∧ (anchors = [] → ch = none) ∧
    (values (c! 'a') opts = [] ↔ st.opts.ctx.anchorfn = none) ∧ (∀ f, values (c! 'a') opts = [f] → st.opts.ctx.anchorfn = some f) := by
  obtain ⟨st', hst', C, -⟩ := c81_engine E emptydir a args ha opts prog h anchors seed
  obtain ⟨st2, hst2, S⟩ := c60_starts E emptydir a args ha opts prog h
  rw [hst] at hst' hst2
  cases hst'
  cases hst2
  obtain ⟨h1, h2⟩ := hA _ _ hc
  refine ⟨fun hne => ?_, fun hnil => h1 (C.unasked hnil).1, ?_, fun f hf => by rw [S.anchor, hf]; rfl⟩
  · obtain ⟨m, e1, e2, e3, e4, -⟩ := C.asked hne
    obtain ⟨g1, g2⟩ := h2 m e1
    cases ch with
    | none => rw [g1 rfl] at e4; cases e4
    | some c => exact ⟨c, rfl, e2 ▸ g2 c rfl⟩
  · rw [S.anchor, List.head?_eq_none_iff]

/-- C81 (no anchors): without an anchor file, nothing is asked of the key process and the wrapper goes on. -/
theorem c81_without (E : Env) (emptydir a : Bytes) (args : List Bytes) (ha : ∀ x ∈ args, NoNul x)
    (opts : List Opt) (prog : List Bytes) (h : Good E args opts prog) (hno : values (c! 'a') opts = [])
    (allocOk : Nat → Bool) (parse : Bytes → Bytes → Option Crt.Parsed) (seed : Bytes) (n : Key.Net.N) :
    ∃ st e, start E emptydir (a :: args) = .ok st ∧ setup allocOk parse st.opts.ctx seed n = .ok (some e) n ∧
      Configured E.x448 opts [] e ∧ Delegated e := by
  obtain ⟨st, hst, C, D⟩ := c81_engine E emptydir a args ha opts prog h [] seed
  obtain ⟨st2, hst2, S⟩ := c60_starts E emptydir a args ha opts prog h
  rw [hst] at hst2
  cases hst2
  refine ⟨st, _, hst, ?_, C, D⟩
  unfold setup
  rw [S.anchor, hno]
  rfl

open Key in
/-- C81 (unreadable anchors): if the key process cannot load the anchor file, the wrapper ends. -/
theorem c81_unreadable (p : P) (ld : LoadEnv) (loads : List LoadEnv) (certfn : Bytes) (hc : certfn.length = 1024)
    (pem : Pems) (c : Ctx) (f : Bytes) (hcf : c.anchorfn = some f) (hf : f.length < 1024) (h0 : NoNul f)
    (allocOk : Nat → Bool) (parse : Bytes → Bytes → Option Crt.Parsed) (seed : Bytes)
    (hload : Pem.load p.cipher pem.nonce ld.key (ld.env (undot (collapse f))) = .ok none)
    (he : 0 < ld.errno ∧ ld.errno < 2 ^ 31) :
    ∃ ans, (∀ o i n, Net.At o (ans ++ i) n →
        Net.Go (setup allocOk parse c seed) n fun e n => e = none ∧ Net.At (o ++ frame (undot (collapse f) ++ [0])) i n) ∧
      Continues p.cipher ld loads certfn pem (frame (undot (collapse f) ++ [0])) ans
        [.got (undot (collapse f) ++ [0]), .load (undot (collapse f)) none, .errno ld.errno] none := by
  have hid := Path.c11_idempotent f
  have hl := Path.c11_length f
  obtain ⟨g1, g2⟩ := c56_getcert_failure p ld loads certfn hc pem (undot (collapse f)) (by omega)
    (fun hm => noNul_fix f h0 0 hm rfl) allocOk parse (by rw [hid]; exact hload) he
  rw [hid] at g2
  refine ⟨_, fun o i n h => ?_, g2⟩
  unfold setup
  rw [hcf]
  simp only
  refine Net.Go.bind ?_
  rw [load_eq _ _ _ h0]
  refine (g1 o i n h).mono ?_
  rintro a n ⟨rfl, h2⟩
  exact ⟨rfl, h2⟩

/-! ### Cases that meet the hypotheses -/

/-- A command line with an anchor and a certificate user. -/
example : Good sampleEnv [b!"-a", b!"/ca.pem", b!"-d/certs", b!"-UcommonName", b!"prog"]
    [.arg (c! 'a') b!"/ca.pem", .arg (c! 'd') b!"/certs", .arg (c! 'U') b!"commonName"] [b!"prog"] := by
  refine ⟨?_, by simp, ?_, ?_⟩
  · exact Reads.word (w := b!"a") (opts := [.arg (c! 'a') b!"/ca.pem"]) (by decide) (by decide) (.separate (by decide))
      (Reads.word (w := b!"d/certs") (opts := [.arg (c! 'd') b!"/certs"]) (by decide) (by decide) (.attached (by decide) (by decide))
        (Reads.word (w := b!"UcommonName") (opts := [.arg (c! 'U') b!"commonName"]) (opts' := []) (by decide) (by decide)
          (.attached (by decide) (by decide)) (.prog (by decide))))
  · refine ⟨?_, ?_, ?_, ?_, ?_, ?_, ?_, ?_, ?_, ?_, ?_⟩ <;> simp [values]
    · rfl
    · rfl
  · refine ⟨?_, ?_, ?_, ?_, ?_⟩
    · simp [values]
    · simp [values]
    · simp [values, switch]
    · exact ⟨60, .plain (ds := b!"60") ⟨by decide, by decide, by decide⟩, by decide, by decide⟩
    · exact ⟨30, .plain (ds := b!"30") ⟨by decide, by decide, by decide⟩, by decide, by decide⟩

/-- What it sets up, with the certificate of `Pem.sampleFile` as anchor: the pipe delivers the certificates in small pieces. -/
def sampleSetup : Option Server :=
  match (start sampleEnv b!"/empty" [b!"w", b!"-a", b!"/ca.pem", b!"-d/certs", b!"-UcommonName", b!"prog"]) with
  | .ok st =>
    match setup (fun _ => true) (Crt.parse Crt.toyD Crt.sample (List.replicate 20 true)) st.opts.ctx [1, 2]
        ⟨⟨[], List.replicate 9 (.data 4095)⟩, ⟨Key.frame (Crt.certPart Crt.twoItems), .data 5 :: List.replicate 9 (.data 4095)⟩⟩ with
    | .ok r _ => r
    | _ => none
  | _ => none

example : (sampleSetup.bind (·.x509)).map (fun m => (m.anchors, m.field)) = some ([⟨[7, 8], true, .ec 23 [9]⟩], some ([3, 85, 4, 3], 256)) ∧
    sampleSetup.map (fun e => (e.tolerate_no_client_auth, e.cbc, e.suites)) = some (false, .pipe, defaultSuites) := by decide +kernel

/-- A contract like BearSSL's: the chain begins with an anchor's name. -/
example : Authenticates (fun e ch => match e.x509, ch with
      | none, c => c = none
      | some _, none => e.tolerate_no_client_auth = true
      | some m, some c => ∃ a ∈ m.anchors, c.head? = some a.dn) (fun as c => ∃ a ∈ as, c.head? = some a.dn) := by
  intro e ch h
  cases hx : e.x509 with
  | none => rw [hx] at h; exact ⟨fun _ => by simpa using h, by nofun⟩
  | some m =>
    rw [hx] at h
    refine ⟨by nofun, fun m' hm => ?_⟩
    cases hm
    cases ch with
    | none => exact ⟨fun _ => h, by nofun⟩
    | some c => exact ⟨by nofun, fun c' hc => by cases hc; exact h⟩

end Conf
