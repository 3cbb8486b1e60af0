import Verif.Conf.Props
import Verif.Log.Props
/-
C115: the log line about a TLS connection (main_tlswrapper.c:571-574).
-/
namespace Conf
open Log Spec

/-! ### Model -/

/-- What the engine says about a connection: tls_engine.c:213-236. The server name is client-chosen;
here it is the text up to its NUL. -/
structure Conn where
  version : Nat
  suite : Nat
  curve : Nat
  sni : Bytes

/-- main_tlswrapper.c:571-574, the arguments of log_9_ (log.h:152-160: level INFO, no error flag). `f`,
`fce`, `l` are `__FILE__`, `__func__` and `__LINE__`; what lies behind the NULs does not matter and is empty here. -/
def connArgs (x448 : Bool) (f fce : Bytes) (l : Nat) (errno : Int) (k : Conn) : Args :=
  ⟨2, 0, some (cstr f []), l, some (cstr fce []),
    [some (cstr b!"SSL connection: " []), some (cstr (tls_version_str k.version) []),
     some (cstr b!", " []), some (cstr (tls_cipher_str k.suite) []), some (cstr b!", " []),
     some (cstr (tls_ecdhe_str x448 k.curve) []),
     some (cstr b!", sni='" []), some (cstr k.sni []), some (cstr b!"'" [])], errno⟩

/-! ### Specification -/

/-- The usual name of a protocol version. -/
def versionText (v : Nat) : Bytes :=
  if v = 0x0301 then b!"TLS 1.0" else if v = 0x0302 then b!"TLS 1.1" else if v = 0x0303 then b!"TLS 1.2"
  else b!"unknown version"

/-- Key type and record protection of a suite (RFC 5289, 7905, 8422). -/
def suiteText (s : Nat) : Bytes :=
  if s = 0xCCA9 then b!"ECDSA + ECDHE + ChaCha20+Poly1305 (TLS 1.2+)"
  else if s = 0xCCA8 then b!"RSA + ECDHE + ChaCha20+Poly1305 (TLS 1.2+)"
  else if s = 0xC02C then b!"ECDSA + ECDHE + AES256/GCM (TLS 1.2+)"
  else if s = 0xC030 then b!"RSA + ECDHE + AES256/GCM (TLS 1.2+)"
  else if s = 0xC02B then b!"ECDSA + ECDHE + AES128/GCM (TLS 1.2+)"
  else if s = 0xC02F then b!"RSA + ECDHE + AES128/GCM (TLS 1.2+)"
  else if s = 0xC024 then b!"ECDSA + ECDHE + AES256/CBC + SHA384 (TLS 1.2+)"
  else if s = 0xC028 then b!"RSA + ECDHE + AES256/CBC + SHA384 (TLS 1.2+)"
  else if s = 0xC023 then b!"ECDSA + ECDHE + AES128/CBC + SHA256 (TLS 1.2+)"
  else if s = 0xC027 then b!"RSA + ECDHE + AES128/CBC + SHA256 (TLS 1.2+)"
  else if s = 0xC00A then b!"ECDSA + ECDHE + AES256/CBC + SHA1"
  else if s = 0xC014 then b!"RSA + ECDHE + AES256/CBC + SHA1"
  else if s = 0xC009 then b!"ECDSA + ECDHE + AES128/CBC + SHA1"
  else if s = 0xC013 then b!"RSA + ECDHE + AES128/CBC + SHA1"
  else b!"unknown cipher"

/-- The name of a group (RFC 8422); X448 only if it is compiled in. -/
def curveText (x448 : Bool) (k : Nat) : Bytes :=
  if k = 29 then b!"x25519" else if k = 23 then b!"secp256r1" else if k = 24 then b!"secp384r1"
  else if k = 25 then b!"secp521r1" else if x448 ∧ k = 30 then b!"x448" else b!"unknown"

/-- The connection as an event of the log. -/
def connEvent (x448 : Bool) (src : Option (Bytes × Bytes × Nat)) (errno : Int) (k : Conn) : Event :=
  ⟨2, 0, src, [b!"SSL connection: ", versionText k.version, b!", ", suiteText k.suite, b!", ",
    curveText x448 k.curve, b!", sni='", k.sni, b!"'"], errno⟩

/-! ### Texts -/

theorem versionText_eq (v : Nat) : tls_version_str v = versionText v := by
  unfold tls_version_str versionText tls_versions
  simp only [List.find?_cons, List.find?_nil, beq_iff_eq]
  by_cases h1 : v = 0x0301
  · subst h1; rfl
  by_cases h2 : v = 0x0302
  · subst h2; rfl
  by_cases h3 : v = 0x0303
  · subst h3; rfl
  have e (n : Nat) (h : ¬ v = n) : (n == v) = false := by simp; omega
  simp [h1, h2, h3, e _ h1, e _ h2, e _ h3]

theorem suiteText_eq (s : Nat) : tls_cipher_str s = suiteText s := by
  unfold tls_cipher_str tls_ciphers suiteText
  simp only [cipherStrLoop, eq_comm (b := s)]

theorem curveText_eq (x448 : Bool) (k : Nat) : tls_ecdhe_str x448 k = curveText x448 k := by
  unfold tls_ecdhe_str curveText tls_ecdhes
  by_cases h1 : k = 29
  · subst h1; rfl
  by_cases h2 : k = 23
  · subst h2; rfl
  by_cases h3 : k = 24
  · subst h3; rfl
  by_cases h4 : k = 25
  · subst h4; rfl
  have e (n : Nat) (h : ¬ k = n) : (n == k) = false := by simp; omega
  cases x448
  · simp [h1, h2, h3, h4, e _ h1, e _ h2, e _ h3, e _ h4]
  · by_cases h5 : k = 30
    · subst h5; rfl
    · simp [h1, h2, h3, h4, h5, e _ h1, e _ h2, e _ h3, e _ h4, e _ h5]

/-- The texts are plain: printable, without comma, backslash and NUL. -/
def Plain (s : Bytes) : Prop := ∀ b ∈ s, Printable b ∧ b ≠ 44 ∧ b ≠ 92

instance (s : Bytes) : Decidable (Plain s) := by unfold Plain; infer_instance

theorem versionText_plain (v : Nat) : Plain (versionText v) := by
  unfold versionText; repeat' split
  all_goals decide

/-- The suites with a text. -/
def suiteCodes : List Nat := [0xCCA9, 0xCCA8, 0xC02C, 0xC030, 0xC02B, 0xC02F, 0xC024, 0xC028, 0xC023, 0xC027, 0xC00A, 0xC014, 0xC009, 0xC013]

theorem suite_cases (s : Nat) : suiteText s = b!"unknown cipher" ∨ s ∈ suiteCodes := by
  by_cases h : s ∈ suiteCodes
  · exact .inr h
  · left
    simp only [suiteCodes, List.mem_cons, List.not_mem_nil, or_false, not_or] at h
    obtain ⟨h1, h2, h3, h4, h5, h6, h7, h8, h9, h10, h11, h12, h13, h14⟩ := h
    unfold suiteText
    rw [if_neg h1, if_neg h2, if_neg h3, if_neg h4, if_neg h5, if_neg h6, if_neg h7, if_neg h8, if_neg h9, if_neg h10,
      if_neg h11, if_neg h12, if_neg h13, if_neg h14]

theorem suiteText_plain (s : Nat) : Plain (suiteText s) := by
  rcases suite_cases s with h | h
  · rw [h]; decide
  · exact (by decide +kernel : ∀ s ∈ suiteCodes, Plain (suiteText s)) s h

theorem curveText_plain (x448 : Bool) (k : Nat) : Plain (curveText x448 k) := by
  unfold curveText; repeat' split
  all_goals decide

theorem Plain.noNul {s : Bytes} (h : Plain s) : NoNul s := by
  intro b hb e
  have := (h b hb).1.1
  rw [e] at this
  exact absurd this (by decide)

theorem shown_plain (s : Bytes) (h : ∀ b ∈ s, Printable b) : shown s = s := by
  induction s with
  | nil => rfl
  | cons b s ih =>
    have hb := h b (by simp)
    have : showByte b = [b] := by
      unfold showByte
      have h1 : b ≠ 10 := by rintro rfl; exact absurd hb (by decide)
      have h2 : b ≠ 13 := by rintro rfl; exact absurd hb (by decide)
      have h3 : b ≠ 9 := by rintro rfl; exact absurd hb (by decide)
      rw [if_neg h1, if_neg h2, if_neg h3, if_pos hb]
    unfold shown at ih ⊢
    rw [List.flatMap_cons, this, ih (fun x hx => h x (by simp [hx]))]
    rfl

theorem shown_append (x y : Bytes) : shown (x ++ y) = shown x ++ shown y := List.flatMap_append

/-- A text without comma is found again in front of one. -/
theorem comma_split (x y u v : Bytes) (hx : (44 : Byte) ∉ x) (hy : (44 : Byte) ∉ y)
    (h : x ++ 44 :: u = y ++ 44 :: v) : x = y ∧ u = v := by
  induction x generalizing y with
  | nil =>
    cases y with
    | nil => simpa using h
    | cons b y => simp only [List.nil_append, List.cons_append, List.cons.injEq] at h; exact absurd (by simp [← h.1]) hy
  | cons a x ih =>
    cases y with
    | nil => simp only [List.nil_append, List.cons_append, List.cons.injEq] at h; exact absurd (by simp [h.1]) hx
    | cons b y =>
      simp only [List.cons_append, List.cons.injEq] at h
      obtain ⟨r, t⟩ := ih y (fun m => hx (by simp [m])) (fun m => hy (by simp [m])) h.2
      exact ⟨by rw [h.1, r], t⟩

/-- What the message looks like in the line. -/
theorem conn_shown (x448 : Bool) (src : Option (Bytes × Bytes × Nat)) (errno : Int) (k : Conn) :
    shown (connEvent x448 src errno k).parts.flatten =
      b!"SSL connection: " ++ versionText k.version ++ b!", " ++ suiteText k.suite ++ b!", " ++
        curveText x448 k.curve ++ b!", sni='" ++ shown k.sni ++ b!"'" := by
  have p1 := shown_plain _ fun b hb => (versionText_plain k.version b hb).1
  have p2 := shown_plain _ fun b hb => (suiteText_plain k.suite b hb).1
  have p3 := shown_plain _ fun b hb => (curveText_plain x448 k.curve b hb).1
  simp only [connEvent, List.flatten_cons, List.flatten_nil, List.append_nil, shown_append, p1, p2, p3,
    List.append_assoc]
  rfl

theorem version_tells (a b : Nat) (ha : ∃ x, version x = some a) (e : versionText a = versionText b) : a = b := by
  obtain ⟨x, hx⟩ := ha
  have hm : a ∈ [0x0301, 0x0302, 0x0303] := by
    unfold version at hx
    repeat' split at hx
    all_goals simp_all
  simp only [List.mem_cons, List.not_mem_nil, or_false] at hm
  rcases hm with rfl | rfl | rfl
  all_goals
    unfold versionText at e
    repeat' split at e
    all_goals first | omega | (exact absurd e (by decide))

theorem suite_tells (a b : Nat) (ha : ∃ x e r, cipher x = some (e, r) ∧ a ∈ [e, r]) (e : suiteText a = suiteText b) : a = b := by
  obtain ⟨x, p, r, hx, hm⟩ := ha
  have hm : a ∈ suiteCodes := by
    unfold cipher at hx
    repeat' split at hx
    all_goals first
      | (cases hx; simp only [List.mem_cons, List.not_mem_nil, or_false] at hm; rcases hm with rfl | rfl <;> decide)
      | cases hx
  have key : ∀ a ∈ suiteCodes,
      suiteText a ≠ b!"unknown cipher" ∧
      ∀ b ∈ suiteCodes,
        suiteText a = suiteText b → a = b := by decide +kernel
  have hb := suite_cases b
  rcases hb with hb | hb
  · exact absurd (e.trans hb) (key a hm).1
  · exact (key a hm).2 b hb e

/-- The groups with a text. -/
def curveCodes (x448 : Bool) : List Nat := if x448 then [29, 23, 24, 25, 30] else [29, 23, 24, 25]

theorem curve_cases (x448 : Bool) (k : Nat) : curveText x448 k = b!"unknown" ∨ k ∈ curveCodes x448 := by
  by_cases h : k ∈ curveCodes x448
  · exact .inr h
  · left
    unfold curveText
    cases x448
    · simp only [curveCodes, Bool.false_eq_true, if_false, List.mem_cons, List.not_mem_nil, or_false, not_or] at h
      obtain ⟨h1, h2, h3, h4⟩ := h
      rw [if_neg h1, if_neg h2, if_neg h3, if_neg h4, if_neg (by simp)]
    · simp only [curveCodes, if_true, List.mem_cons, List.not_mem_nil, or_false, not_or] at h
      obtain ⟨h1, h2, h3, h4, h5⟩ := h
      rw [if_neg h1, if_neg h2, if_neg h3, if_neg h4, if_neg (by simp [h5])]

theorem curve_tells (x448 : Bool) (a b : Nat) (ha : ∃ x, curve x448 x = some a) (e : curveText x448 a = curveText x448 b) : a = b := by
  obtain ⟨x, hx⟩ := ha
  have hm : a ∈ curveCodes x448 := by
    unfold curve at hx
    unfold curveCodes
    repeat' split at hx
    all_goals cases hx
    all_goals cases x448 <;> simp_all
  have key : ∀ x448, ∀ a ∈ curveCodes x448, curveText x448 a ≠ b!"unknown" ∧
      ∀ b ∈ curveCodes x448, curveText x448 a = curveText x448 b → a = b := by decide +kernel
  rcases curve_cases x448 b with hb | hb
  · exact absurd (e.trans hb) (key x448 a hm).1
  · exact (key x448 a hm).2 b hb e

/-! ### C115 -/

/-- **C115 (what is written).** Where an info record is due, exactly one line is written, and it names the version, the
suite, the group and the server name of the connection. -/
theorem c115_written (m : Cfg) (c : Settings) (hc : m.Holds c) (w : Whitelist) (lv : Levels) (x448 : Bool)
    (f fce : Bytes) (hf : NoNul f) (hfce : NoNul fce) (hf10 : (10 : Byte) ∉ f) (hfce10 : (10 : Byte) ∉ fce)
    (l : Nat) (hl : 0 < l) (hl2 : l < 2 ^ 62) (errno : Int) (k : Conn) (hk : NoNul k.sni) (s : St) (hs : s.Idle)
    (hd : AllData s.evs)
    (hn : (line c lv.loc lv.id (connEvent x448 (some (f, fce, l)) errno k)).length < s.evs.length) (due : 2 ≤ lv.gate) :
    ∃ s', log_9_ m w lv (connArgs x448 f fce l errno k) s = .ok s' ∧ s'.Idle ∧
      s'.err = s.err ++ (line c lv.loc lv.id (connEvent x448 (some (f, fce, l)) errno k) ++ [10]) := by
  refine c35_layout m c hc w lv _ _ (some f) ⟨rfl, rfl, rfl, ?_, ?_⟩ ⟨hf, [], rfl⟩ (by simp [connEvent])
    (by simp [connEvent]) s hs hd hn ⟨by simpa [connEvent] using due, by simp [connEvent]⟩
  · simp only [connArgs, connEvent, List.take, versionText_eq, suiteText_eq, curveText_eq]
    refine .cons (by decide) (.cons (versionText_plain _).noNul (.cons (by decide) (.cons (suiteText_plain _).noNul
      (.cons (by decide) (.cons (curveText_plain _ _).noNul (.cons (by decide) (.cons hk (.cons (by decide) .nil))))))))
  · exact ⟨⟨hf, [], rfl⟩, ⟨hfce, [], rfl⟩, rfl, hl, hl2, hf10, hfce10⟩

/-- **C115 (nobody can forge it).** Under the same settings, equal lines mean the same texts for version, suite and group, and server
names shown alike — whatever bytes the clients sent as server names. -/
theorem c115_same (c : Settings) (vl vi : Int) (x448 : Bool) (src : Option (Bytes × Bytes × Nat)) (errno : Int) (j k : Conn)
    (h : line c vl vi (connEvent x448 src errno j) = line c vl vi (connEvent x448 src errno k)) :
    versionText j.version = versionText k.version ∧ suiteText j.suite = suiteText k.suite ∧
      curveText x448 j.curve = curveText x448 k.curve ∧ shown j.sni = shown k.sni := by
  have h : shown (connEvent x448 src errno j).parts.flatten = shown (connEvent x448 src errno k).parts.flatten := by
    unfold line at h
    simp only [connEvent, List.append_assoc, List.append_cancel_left_eq] at h ⊢
    simpa only [← List.append_assoc, List.append_cancel_right_eq] using h
  have no {s : Bytes} (p : Plain s) : (44 : Byte) ∉ s := fun m => (p _ m).2.1 rfl
  rw [conn_shown, conn_shown] at h
  simp only [List.append_assoc, List.append_cancel_left_eq] at h
  have step {x y u v : Bytes} (p : Plain x) (q : Plain y) (e : x ++ (b!", " ++ u) = y ++ (b!", " ++ v)) : x = y ∧ u = v := by
    have := comma_split x y (32 :: u) (32 :: v) (no p) (no q) e
    exact ⟨this.1, by simpa using this.2⟩
  obtain ⟨e1, h⟩ := step (versionText_plain _) (versionText_plain _) h
  obtain ⟨e2, h⟩ := step (suiteText_plain _) (suiteText_plain _) h
  obtain ⟨e3, h⟩ := step (u := b!"sni='" ++ (shown j.sni ++ b!"'")) (v := b!"sni='" ++ (shown k.sni ++ b!"'"))
    (curveText_plain _ _) (curveText_plain _ _) h
  rw [List.append_cancel_left_eq, List.append_cancel_right_eq] at h
  exact ⟨e1, e2, e3, h⟩

/-- **C115 (what it tells).** Connections that the options allow have the same line only if they have the same version,
suite and group. -/
theorem c115_tells (c : Settings) (vl vi : Int) (x448 : Bool) (src : Option (Bytes × Bytes × Nat)) (errno : Int) (j k : Conn)
    (hv : (∃ x, version x = some j.version) ∨ ∃ x, version x = some k.version)
    (hs : (∃ x e r, cipher x = some (e, r) ∧ j.suite ∈ [e, r]) ∨ ∃ x e r, cipher x = some (e, r) ∧ k.suite ∈ [e, r])
    (hk : (∃ x, curve x448 x = some j.curve) ∨ ∃ x, curve x448 x = some k.curve)
    (h : line c vl vi (connEvent x448 src errno j) = line c vl vi (connEvent x448 src errno k)) :
    j.version = k.version ∧ j.suite = k.suite ∧ j.curve = k.curve := by
  obtain ⟨e1, e2, e3, -⟩ := c115_same c vl vi x448 src errno j k h
  refine ⟨?_, ?_, ?_⟩
  · rcases hv with hv | hv
    · exact version_tells _ _ hv e1
    · exact (version_tells _ _ hv e1.symm).symm
  · rcases hs with hs | hs
    · exact suite_tells _ _ hs e2
    · exact (suite_tells _ _ hs e2.symm).symm
  · rcases hk with hk | hk
    · exact curve_tells _ _ _ hk e3
    · exact (curve_tells _ _ _ hk e3.symm).symm

/-- **C115 (the server name).** Server names without backslash — every host name is one — can be read back from the line. -/
theorem c115_sni (c : Settings) (vl vi : Int) (x448 : Bool) (src : Option (Bytes × Bytes × Nat)) (errno : Int) (j k : Conn)
    (hj : (92 : Byte) ∉ j.sni) (hk : (92 : Byte) ∉ k.sni)
    (h : line c vl vi (connEvent x448 src errno j) = line c vl vi (connEvent x448 src errno k)) : j.sni = k.sni :=
  c35_unambiguous_partial _ _ hj hk (c115_same c vl vi x448 src errno j k h).2.2.2

/-- A client that writes a line of its own into the server name: the line stays one, and says what was negotiated. -/
example : line ⟨some b!"tlswrapper", none, some b!"192.0.2.1", none, false⟩ 2 1
    (connEvent false none 0 ⟨0x0303, 0xC02B, 29, b!"a'\nSSL connection: TLS 1.0, "⟩) =
    b!"tlswrapper: info: 192.0.2.1: SSL connection: TLS 1.2, ECDSA + ECDHE + AES128/GCM (TLS 1.2+), x25519, sni='a'\\nSSL connection: TLS 1.0, '" := by
  decide +kernel

/-- The hypotheses of `c115_tells` are met by this connection. -/
example : (∃ x, version x = some 0x0303) ∧ (∃ x e r, cipher x = some (e, r) ∧ 0xC02B ∈ [e, r]) ∧ ∃ x, curve false x = some 29 :=
  ⟨⟨b!"tls12", by decide⟩, ⟨b!"AES_128_GCM_SHA256", 0xC02B, 0xC02F, by decide, by decide⟩, ⟨b!"x25519", by decide⟩⟩

end Conf
