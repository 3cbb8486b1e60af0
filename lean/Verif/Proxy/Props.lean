import Verif.Proxy.Lemmas
import Verif.Proxy.Codec
/-
C07, C08, C09, C10: the PROXY protocol v1 header.
-/
namespace Proxy
open Io Num.Spec

/-- C08, C09: for every stream and schedule the reader performs no access outside
its buffers (the result is never `ub`), and if it returns, what it consumed is
either exactly the bytes up to and including the first LF, or 127 bytes without
LF, or everything up to a read error or end of stream. -/
theorem c08_consumes (C : IpCodec) (hC : C.Lawful) (fd : RFd) :
    get C fd = .ok none ∨
    ∃ r fd', get C fd = .ok (some (r, fd')) ∧
      ∃ used, fd.src = used ++ fd'.src ∧ used.length ≤ 127 ∧
        ((∃ L, used = L ++ [c! '\n'] ∧ c! '\n' ∉ L) ∨
         (r = none ∧ c! '\n' ∉ used ∧ (used.length = 127 ∨ fd'.src = [] ∨
            ∃ ev ∈ fd.evs, ev = .eagain ∨ ∃ e, ev = .err e))) := by
  rcases get_cases C hC fd with h | ⟨r, L, fd', h1, h2, -, h3⟩
  · exact .inl h
  · refine .inr ⟨r, fd', h1, ?_⟩
    rcases h3 with ⟨h3, h4, -⟩ | ⟨h3, h4, h5⟩ | ⟨h3, h4, h5, h6⟩
    · exact ⟨L ++ [c! '\n'], by simp [h4], by simp; omega, .inl ⟨L, rfl, h2⟩⟩
    · exact ⟨L, h5, by omega, .inr ⟨h3, h2, .inl h4⟩⟩
    · refine ⟨L, h5, by omega, .inr ⟨h3, h2, .inr h6⟩⟩

/-- C08: when a header is accepted, every byte after its LF is still unread. -/
theorem c08_payload_kept (C : IpCodec) (hC : C.Lawful) (fd fd' : RFd) (e : Ends)
    (h : get C fd = .ok (some (some e, fd'))) :
    ∃ L, fd.src = L ++ c! '\n' :: fd'.src ∧ c! '\n' ∉ L ∧ L.length < 127 := by
  rcases get_cases C hC fd with h1 | ⟨r, L, fd1, h1, h2, -, h3⟩
  · rw [h1] at h; simp at h
  · rw [h1] at h
    simp only [Out.ok.injEq, Option.some.injEq, Prod.mk.injEq] at h
    obtain ⟨rfl, rfl⟩ := h
    rcases h3 with ⟨h3, h4, -⟩ | ⟨h3, _⟩ | ⟨h3, _⟩
    · exact ⟨L, h4, h2, h3⟩
    · cases h3
    · cases h3

example : get cCodec ⟨b!"PROXY TCP4 1.2.3.4 5.6.7.8 80 443\r\n\x16\x03\x01", List.replicate 40 (.data 99)⟩
    = .ok (some (some ⟨v4prefix ++ [5,6,7,8], (1, 187), v4prefix ++ [1,2,3,4], (0, 80)⟩,
        ⟨b!"\x16\x03\x01", List.replicate 5 (.data 99)⟩)) := by decide +kernel

/-- C09: no byte string, with any read schedule, makes the header reader access
memory outside its buffers. -/
theorem c09_memory_safe (C : IpCodec) (hC : C.Lawful) (fd : RFd) : get C fd ≠ .ub := by
  rcases get_cases C hC fd with h | ⟨r, L, fd', h, -⟩ <;> rw [h] <;> simp

/-- C09: accepted endpoints always have the sizes of the caller's fields. -/
theorem c09_sizes (C : IpCodec) (hC : C.Lawful) (fd fd' : RFd) (e : Ends)
    (h : get C fd = .ok (some (some e, fd'))) : e.localip.length = 16 ∧ e.remoteip.length = 16 := by
  rcases get_cases C hC fd with h1 | ⟨r, L, fd1, h1, h2, -, h3⟩
  · rw [h1] at h; simp at h
  · rw [h1] at h
    simp only [Out.ok.injEq, Option.some.injEq, Prod.mk.injEq] at h
    obtain ⟨rfl, rfl⟩ := h
    rcases h3 with ⟨-, -, h3⟩ | ⟨h3, _⟩ | ⟨h3, _⟩
    · have hlen : ∀ six x a, AddrOf C six x a → a.length = 16 := by
        intro six x a h
        cases h with
        | v4 h => simp [v4prefix, (hC.in4 _ _ h).1]
        | v6 h => exact (hC.in6 _ _ h).1
      have := (h3 e).mp rfl
      cases this with
      | unknown => decide
      | tcp a1 a2 => exact ⟨hlen _ _ _ a2, hlen _ _ _ a1⟩
    · cases h3
    · cases h3

/-- C10: exactly what is accepted. If the stream starts with the line `L` and the
reader returns without a read error, it accepts with endpoints `e` exactly when
`Loose C L e`. -/
theorem c10_exact (C : IpCodec) (hC : C.Lawful) (L payload : Bytes) (evs : List RdEv)
    (hL : c! '\n' ∉ L) (hlen : L.length < 127) (r : Option Ends) (fd' : RFd)
    (hev : ∀ ev ∈ evs, ¬ (ev = .eagain ∨ ∃ e, ev = .err e))
    (h : get C ⟨L ++ c! '\n' :: payload, evs⟩ = .ok (some (r, fd'))) (e : Ends) :
    r = some e ↔ Loose C L e := by
  have uniq : ∀ (A B X Y : Bytes), c! '\n' ∉ A → c! '\n' ∉ B → A ++ c! '\n' :: X = B ++ c! '\n' :: Y →
      A = B ∧ X = Y := by
    intro A
    induction A with
    | nil =>
      intro B X Y _ hB h
      cases B with
      | nil => simpa using h
      | cons b B => simp at h; simp [h.1] at hB
    | cons a A ih =>
      intro B X Y hA hB h
      cases B with
      | nil => simp at h; simp [h.1] at hA
      | cons b B =>
        simp only [List.mem_cons, not_or] at hA hB
        simp only [List.cons_append, List.cons.injEq] at h
        obtain ⟨h1, h2⟩ := ih B X Y hA.2 hB.2 h.2
        exact ⟨by rw [h.1, h1], h2⟩
  have noshort : ∀ (A B X Y : Bytes), c! '\n' ∉ B → A ++ c! '\n' :: X = B ++ Y → B.length ≤ A.length ∧
      Y ≠ [] := by
    intro A
    induction A with
    | nil =>
      intro B X Y hB h
      cases B with
      | nil => simp at h; simp [← h]
      | cons b B => simp at h; simp [h.1] at hB
    | cons a A ih =>
      intro B X Y hB h
      cases B with
      | nil => simp at h; simp [← h]
      | cons b B =>
        simp only [List.mem_cons, not_or] at hB
        simp only [List.cons_append, List.cons.injEq] at h
        obtain ⟨h1, h2⟩ := ih B X Y hB.2 h.2
        exact ⟨by simp; omega, h2⟩
  rcases get_cases C hC ⟨L ++ c! '\n' :: payload, evs⟩ with h1 | ⟨r, L', fd1, h1, h2, -, h3⟩
  · rw [h1] at h; simp at h
  · rw [h1] at h
    simp only [Out.ok.injEq, Option.some.injEq, Prod.mk.injEq] at h
    obtain ⟨rfl, rfl⟩ := h
    rcases h3 with ⟨h3, h4, h5⟩ | ⟨h3, h4, h5⟩ | ⟨h3, h4, h5, h6⟩
    · obtain ⟨rfl, -⟩ := uniq _ _ _ _ hL h2 h4
      exact h5 e
    · have := (noshort _ _ _ _ h2 h5).1; omega
    · exfalso
      rcases h6 with h6 | ⟨ev, h6, h7⟩
      · exact (noshort _ _ _ _ h2 h5).2 h6
      · exact hev ev h6 h7

/-- C10 (partial): among headers without NUL bytes, an accepted TCP header is a strict
header ("PROXY TCPx src dst sport dport", single spaces, addresses of the announced
family, decimal ports) up to the first CR: after the last port there is nothing or a
CR. Missing for the full statement: the code also accepts NUL as a separator, a line
ended by LF alone, and any text between CR and LF; see `c10_violation_*`. -/
theorem c10_accepted_is_strict_partial (C : IpCodec) (L : Bytes) (e : Ends) (hn : NoNul L)
    (h : Loose C L e) :
    (∃ t, L = b!"PROXY UNKNOWN" ++ t ∧ e = ⟨List.replicate 16 0, (0, 0), List.replicate 16 0, (0, 0)⟩) ∨
    ∃ K tail, Strict C (K ++ b!"\r") e ∧ L = K ++ tail ∧ (tail = [] ∨ ∃ t, tail = c! '\r' :: t) := by
  cases h with
  | unknown => exact .inl ⟨_, rfl, rfl⟩
  | tcp a1 a2 a3 a4 a5 a6 a7 a8 =>
    rename_i six src dst sp dp s1 s2 s3 tail
    right
    have hs1 : s1 = c! ' ' := a5.resolve_right (fun h => hn s1 (by simp) h)
    have hs2 : s2 = c! ' ' := a6.resolve_right (fun h => hn s2 (by simp) h)
    have hs3 : s3 = c! ' ' := a7.resolve_right (fun h => hn s3 (by simp) h)
    subst hs1; subst hs2; subst hs3
    refine ⟨word six ++ src ++ b!" " ++ dst ++ b!" " ++ sp ++ b!" " ++ dp, tail,
      .tcp a1 a2 a3 a4, by simp, ?_⟩
    rcases a8 with h | ⟨x, t, h, hx⟩
    · exact .inl h
    · right
      refine ⟨t, ?_⟩
      rcases hx with rfl | rfl
      · exact h
      · exact absurd rfl (hn 0 (by simp [h]))

/-- C10: every strict header is accepted, with the endpoints it denotes. -/
theorem c10_strict_accepted (C : IpCodec) (L : Bytes) (e : Ends) (h : Strict C L e) : Loose C L e := by
  cases h with
  | tcp a1 a2 a3 a4 =>
    rename_i six src dst sp dp
    have := Loose.tcp (tail := b!"\r") a1 a2 a3 a4 (.inl rfl) (.inl rfl) (.inl rfl) (.inr ⟨_, _, rfl, .inl rfl⟩)
    simpa using this

/-- A schedule of `n` ordinary reads. -/
def plenty (n : Nat) : List RdEv := List.replicate n (.data 0)

/-- C10, violation: a line ended by LF alone is accepted. -/
theorem c10_violation_lf_only : ∃ e fd', get cCodec ⟨b!"PROXY TCP4 1.2.3.4 5.6.7.8 80 443\n", plenty 127⟩
    = .ok (some (some e, fd')) := ⟨⟨v4prefix ++ [5,6,7,8], (1, 187), v4prefix ++ [1,2,3,4], (0, 80)⟩,
      ⟨[], plenty 93⟩, by decide +kernel⟩

/-- C10, violation: NUL bytes in place of the spaces are accepted. -/
theorem c10_violation_nul : ∃ e fd', get cCodec
      ⟨b!"PROXY TCP4 1.2.3.4\x005.6.7.8\x0080\x00443\r\n", plenty 127⟩
    = .ok (some (some e, fd')) := ⟨⟨v4prefix ++ [5,6,7,8], (1, 187), v4prefix ++ [1,2,3,4], (0, 80)⟩,
      ⟨[], plenty 92⟩, by decide +kernel⟩

/-- C10, violation: text between CR and LF is ignored. -/
theorem c10_violation_trailing : ∃ e fd', get cCodec
      ⟨b!"PROXY TCP4 1.2.3.4 5.6.7.8 80 443\r 9 9 9\n", plenty 127⟩
    = .ok (some (some e, fd')) := ⟨⟨v4prefix ++ [5,6,7,8], (1, 187), v4prefix ++ [1,2,3,4], (0, 80)⟩,
      ⟨[], plenty 86⟩, by decide +kernel⟩

/-! ### C07 -/

/-- The header text for endpoints `e`. -/
def headerText (C : IpCodec) (e : Ends) : Bytes :=
  word (decide (e.remoteip.take 12 ≠ v4prefix)) ++ iptostr C e.remoteip ++ b!" " ++ iptostr C e.localip ++
    b!" " ++ decimal (portVal e.remoteport) ++ b!" " ++ decimal (portVal e.localport) ++ b!"\r\n"

/-- Both addresses are IPv4 (v4-mapped) or both are not. -/
def SameFamily (e : Ends) : Prop := e.remoteip.take 12 = v4prefix ↔ e.localip.take 12 = v4prefix

/-- Well-formed endpoint fields. -/
def EndsOk (e : Ends) : Prop := e.localip.length = 16 ∧ e.remoteip.length = 16

theorem portstr_ok (static : Bytes) (p : Byte × Byte) (hs : 6 ≤ static.length) :
    portstr static p = .ok (decimal (portVal p)) := by
  obtain ⟨pad, hp, hl, h⟩ := Num.c02_porttostr_prints static p.1 p.2 hs
  unfold portstr
  rw [h]
  simp only [Out.ok_bind, List.drop_zero]
  obtain ⟨k, rfl⟩ : ∃ k, pad = k + 1 := ⟨pad - 1, by omega⟩
  have e : decimal (Num.portNum p.1 p.2) ++ List.replicate (k + 1) 0 ++ List.drop 6 static =
      cstr (decimal (Num.portNum p.1 p.2)) (List.replicate k 0 ++ List.drop 6 static) := by
    simp [cstr, List.replicate_succ]
  rw [e, cstrOf_cstr _ _ (Num.decimal_noNul _)]
  rfl

theorem iptostr_len (C : IpCodec) (hC : C.Lawful) (a : Bytes) (h : a.length = 16) :
    (iptostr C a).length ≤ 45 := by
  unfold iptostr
  split
  · exact hC.len4 _ (by simp [h])
  · exact hC.len6 _ h

theorem decimal_port_len (p : Byte × Byte) : (decimal (portVal p)).length ≤ 5 := by
  have h1 := p.1.toNat_lt
  have h2 := p.2.toNat_lt
  have := Num.decimal_length_port (portVal p) (by unfold portVal; omega)
  exact this

/-- C07: the emitted header always fits 116 bytes. -/
theorem c07_header_length (C : IpCodec) (hC : C.Lawful) (e : Ends) (he : EndsOk e) :
    (headerText C e).length ≤ 116 := by
  have h1 := iptostr_len C hC e.remoteip he.2
  have h2 := iptostr_len C hC e.localip he.1
  have h3 := decimal_port_len e.remoteport
  have h4 := decimal_port_len e.localport
  have hw : (word (decide (e.remoteip.take 12 ≠ v4prefix))).length = 11 := by
    cases decide (e.remoteip.take 12 ≠ v4prefix) <;> rfl
  unfold headerText
  simp only [List.length_append, hw, List.length_cons, List.length_nil]
  omega

/-- C07 (emission): the generator writes exactly the header text when the buffer is large
enough and memory is available, and otherwise writes nothing and returns 0. Nothing
is emitted for all-zero endpoints. -/
theorem c07_emit (C : IpCodec) (alloc : Bool) (static buf : Bytes) (buflen : Nat) (e : Ends)
    (hs : 6 ≤ static.length) (hb : buflen ≤ buf.length) :
    v1 C alloc static (some buf) buflen e =
      if e = zeroEnds ∨ alloc = false ∨ buflen < (headerText C e).length then .ok (0, some buf)
      else .ok ((headerText C e).length, some (headerText C e ++ buf.drop (headerText C e).length)) := by
  have hz : e = zeroEnds ↔ (e.localip = zeroIp ∧ e.remoteip = zeroIp ∧ e.localport = (0, 0) ∧ e.remoteport = (0, 0)) := by
    cases e
    simp only [zeroEnds, Ends.mk.injEq]
    constructor
    · rintro ⟨a, b, c, d⟩; exact ⟨a, c, b, d⟩
    · rintro ⟨a, b, c, d⟩; exact ⟨a, c, b, d⟩
  unfold v1
  by_cases h0 : e = zeroEnds
  · rw [if_pos (hz.mp h0), if_pos (.inl h0)]; rfl
  · rw [if_neg (fun h => h0 (hz.mpr h))]
    cases alloc with
    | false => rw [if_pos rfl, if_pos (.inr (.inl rfl))]; rfl
    | true =>
      rw [if_neg (by simp)]
      simp only [portstr_ok static _ hs, Out.ok_bind]
      have ht : (if e.remoteip.take 12 = v4prefix then b!"PROXY TCP4 " else b!"PROXY TCP6 ") ++
          iptostr C e.remoteip ++ b!" " ++ iptostr C e.localip ++ b!" " ++ decimal (portVal e.remoteport) ++
          b!" " ++ decimal (portVal e.localport) ++ b!"\r\n" = headerText C e := by
        unfold headerText
        by_cases h : e.remoteip.take 12 = v4prefix <;> simp [h, word]
      rw [ht]
      by_cases hl : buflen ≥ (headerText C e).length
      · rw [if_pos hl, if_neg (by simp [h0]; omega)]
        have hbl : (headerText C e).length ≤ buf.length := by omega
        have := copyN_ok [] (buf.take (headerText C e).length) (buf.drop (headerText C e).length)
          (headerText C e) [] (by simp; omega)
        simp only [List.nil_append, List.append_nil, List.take_append_drop, List.length_nil] at this
        rw [this]
        rfl
      · rw [if_neg hl, if_pos (.inr (.inr (by omega)))]
        rfl

theorem oneread_live (src : Bytes) (k : Nat) (evs : List RdEv)
    (h : ∀ ev ∈ evs, ¬ Bad ev) :
    (Rw.dataCount evs = 0 ∧ Buffer.onereadLoop src k evs = none) ∨
    ∃ r g fd, Buffer.onereadLoop src k evs = some (r, g, fd) ∧ Rw.dataCount fd.evs + 1 = Rw.dataCount evs := by
  induction evs with
  | nil => left; exact ⟨rfl, rfl⟩
  | cons ev evs ih =>
    cases ev with
    | data m => right; exact ⟨_, _, _, rfl, rfl⟩
    | eintr =>
      rcases ih (fun e he => h e (by simp [he])) with ⟨h1, h2⟩ | ⟨r, g, fd, h1, h2⟩
      · left; exact ⟨h1, h2⟩
      · right; exact ⟨r, g, fd, h1, h2⟩
    | eagain => exact absurd (.inl rfl) (h .eagain (by simp))
    | err e => exact absurd (.inr ⟨e, rfl⟩) (h (.err e) (by simp))

theorem readLoop_live (k pos : Nat) (buf : Bytes) (fd : RFd) (hg : ∀ ev ∈ fd.evs, ¬ Bad ev)
    (hc : ∀ L, fd.src ≠ [] → L ++ [c! '\n'] <+: fd.src → L.length < k → c! '\n' ∉ L → L.length < Rw.dataCount fd.evs)
    (hsrc : ∃ L X, fd.src = L ++ c! '\n' :: X ∧ c! '\n' ∉ L ∧ L.length < k) :
    readLoop k pos buf (Buffer.iinit [] fd) ≠ .ok none := by
  induction k generalizing pos buf fd with
  | zero => simp [readLoop]
  | succ k ih =>
    obtain ⟨L, X, h1, h2, h3⟩ := hsrc
    have hlt := hc L (by simp [h1]) ⟨X, by simp [h1]⟩ h3 h2
    rw [readLoop]
    have h0 : Buffer.getc (Buffer.iinit [] fd) = match Buffer.oneread fd 1 with
        | none => .ok none
        | some (r, g, fd') => .ok (some (r, g, Buffer.iinit [] fd')) := by
      unfold Buffer.getc Buffer.bget Buffer.iinit
      simp
      cases Buffer.oneread fd 1 <;> rfl
    rcases oneread_live fd.src 1 fd.evs hg with ⟨h4, -⟩ | ⟨r, g, fd1, h4, h5⟩
    · omega
    · have h4' : Buffer.oneread fd 1 = some (r, g, fd1) := h4
      rw [h0, h4']
      simp only []
      by_cases hr : r ≠ 1
      · rw [if_pos hr]; simp
      · rw [if_neg hr]
        obtain ⟨q1, q2, q3⟩ := Buffer.onereadLoop_ok _ _ _ _ _ _ h4
        cases g with
        | nil =>
          rcases q3 with ⟨q3, _⟩ | ⟨q3, _⟩
          · simp at q3; omega
          · omega
        | cons c g =>
          have hgn : g = [] := List.length_eq_zero_iff.mp (by rw [List.length_cons] at q2; omega)
          subst hgn
          simp only [rd_cons_zero]
          cases hw : wr buf pos c with
          | ub => simp
          | ok buf' =>
            simp only []
            by_cases hcn : c = c! '\n'
            · rw [if_pos hcn]; simp
            · rw [if_neg hcn]
              obtain ⟨u, hu⟩ := Buffer.oneread_evs _ _ _ _ _ _ h4
              have hL : ∃ L', L = c :: L' := by
                cases L with
                | nil => rw [h1] at q1; simp at q1; exact absurd q1.1.symm hcn
                | cons b L' => rw [h1] at q1; simp at q1; exact ⟨L', by rw [q1.1]⟩
              obtain ⟨L', rfl⟩ := hL
              have hs1 : fd1.src = L' ++ c! '\n' :: X := by
                rw [h1] at q1; simpa using q1.symm
              simp only [List.mem_cons, not_or] at h2
              apply ih (pos + 1) buf' fd1 (fun ev he => hg ev (by rw [hu]; simp [he]))
              · intro M _ hM hMk hMn
                have := hc (c :: M) (by simp [h1]) (by
                  rw [q1]; simpa using hM) (by simp; omega) (by
                  simp only [List.mem_cons, not_or]; exact ⟨fun h => hcn h.symm, hMn⟩)
                simp at this; omega
              · exact ⟨L', X, hs1, h2.2, by simp at h3; omega⟩

/-- C07 (round trip): for every lawful address codec, all endpoints of one family
(not all zero), any payload and any schedule of reads without errors that delivers
enough bytes, the receiving side parses the emitted header to exactly the same
endpoints and leaves exactly the payload unread. -/
theorem c07_roundtrip (C : IpCodec) (hC : C.Lawful) (e : Ends) (he : EndsOk e) (hf : SameFamily e)
    (payload : Bytes) (evs : List RdEv) (hev : ∀ ev ∈ evs, ¬ (ev = .eagain ∨ ∃ e, ev = .err e))
    (hcount : 116 ≤ Rw.dataCount evs) :
    ∃ evs', get C ⟨headerText C e ++ payload, evs⟩ = .ok (some (some e, ⟨payload, evs'⟩)) := by
  -- the line without its LF
  have hK : ∃ K, headerText C e = K ++ [c! '\n'] ∧ Strict C K e := by
    refine ⟨word (decide (e.remoteip.take 12 ≠ v4prefix)) ++ iptostr C e.remoteip ++ b!" " ++ iptostr C e.localip ++
      b!" " ++ decimal (portVal e.remoteport) ++ b!" " ++ decimal (portVal e.localport) ++ b!"\r", by simp [headerText], ?_⟩
    have hp : ∀ p : Byte × Byte, PortOf (decimal (portVal p)) p := fun p =>
      ⟨Num.numeral_decimal _, Num.value_decimal _⟩
    have hv4 : ∀ a : Bytes, a.length = 16 → a.take 12 = v4prefix → AddrOf C false (iptostr C a) a := by
      intro a ha h
      have : a = v4prefix ++ a.drop 12 := by rw [← h, List.take_append_drop]
      unfold iptostr
      rw [if_pos h]
      conv => rhs; rw [this]
      exact .v4 (hC.rt4 _ (by simp [ha]))
    have hv6 : ∀ a : Bytes, a.length = 16 → a.take 12 ≠ v4prefix → AddrOf C true (iptostr C a) a := by
      intro a ha h
      unfold iptostr
      rw [if_neg h]
      exact .v6 (hC.rt6 _ ha)
    unfold SameFamily at hf
    by_cases h : e.remoteip.take 12 = v4prefix
    · have : decide (e.remoteip.take 12 ≠ v4prefix) = false := by simp [h]
      rw [this]
      exact .tcp (hv4 _ he.2 h) (hv4 _ he.1 (hf.mp h)) (hp _) (hp _)
    · have : decide (e.remoteip.take 12 ≠ v4prefix) = true := by simp [h]
      rw [this]
      exact .tcp (hv6 _ he.2 h) (hv6 _ he.1 (fun h' => h (hf.mpr h'))) (hp _) (hp _)
  obtain ⟨K, hK1, hK2⟩ := hK
  have hlen := c07_header_length C hC e he
  rw [hK1] at hlen
  simp at hlen
  have hnl : c! '\n' ∉ K := by
    cases hK2 with
    | tcp a1 a2 a3 a4 =>
      rename_i six src dst sp dp
      have hip : ∀ x a, AddrOf C six x a → c! '\n' ∉ x := by
        intro x a h hm
        cases h with
        | v4 h => exact (ipchar_ne _ ((hC.in4 _ _ h).2 _ hm)).2.2.1 rfl
        | v6 h => exact (ipchar_ne _ ((hC.in6 _ _ h).2 _ hm)).2.2.1 rfl
      have hpt : ∀ x p, PortOf x p → c! '\n' ∉ x := fun x p h hm =>
        (digit_ne _ (numeral_chars h.1 _ hm)).2.2.1 rfl
      have hw : c! '\n' ∉ word six := by cases six <;> decide
      have h1 := hip _ _ a1; have h2 := hip _ _ a2; have h3 := hpt _ _ a3; have h4 := hpt _ _ a4
      simp [hw, h1, h2, h3, h4]
  have hsrc : headerText C e ++ payload = K ++ c! '\n' :: payload := by rw [hK1]; simp
  rw [hsrc]
  have hlive : get C ⟨K ++ c! '\n' :: payload, evs⟩ ≠ .ok none := by
    intro h
    have hl := readLoop_live (MAX - 1) 0 (List.replicate MAX 0) ⟨K ++ c! '\n' :: payload, evs⟩ hev
      (by
        intro L _ hpre hLk hLn
        obtain ⟨Y, hY⟩ := hpre
        have : L.length ≤ K.length := by
          rcases Nat.lt_or_ge K.length L.length with hgt | hle
          · exfalso
            have h1 := congrArg (fun l => l[K.length]?) hY
            simp only [] at h1
            rw [List.getElem?_append_right (by simp : K.length ≤ K.length)] at h1
            rw [List.append_assoc, List.getElem?_append_left hgt] at h1
            simp at h1
            exact hLn (List.mem_of_getElem? h1)
          · exact hle
        show L.length < Rw.dataCount evs
        omega)
      ⟨K, payload, rfl, hnl, by simp [MAX]; omega⟩
    unfold get at h
    cases hr : readLoop (MAX - 1) 0 (List.replicate MAX 0) (Buffer.iinit [] ⟨K ++ c! '\n' :: payload, evs⟩) with
    | ub => rw [hr] at h; simp at h
    | ok v =>
      cases v with
      | none => exact hl hr
      | some v =>
        obtain ⟨ok, pos, buf, b⟩ := v
        rw [hr] at h
        simp only [Out.ok_bind] at h
        split at h
        · cases h
        · cases hrd : rd buf pos with
          | ub => rw [hrd] at h; simp at h
          | ok c =>
            rw [hrd] at h
            simp only [Out.ok_bind] at h
            split at h
            · cases h
            · cases hwr : wr buf (pos + 1) 0 with
              | ub => rw [hwr] at h; simp at h
              | ok m =>
                rw [hwr] at h
                simp only [Out.ok_bind] at h
                cases hd : dispatch C m with
                | ub => rw [hd] at h; simp at h
                | ok m => rw [hd] at h; cases h
  rcases get_cases C hC ⟨K ++ c! '\n' :: payload, evs⟩ with h1 | ⟨r, L', fd1, h1, h2, -, h3⟩
  · exact absurd h1 hlive
  · have hex := c10_exact C hC K payload evs hnl (by omega) r fd1 hev h1 e
    have hr : r = some e := hex.mpr (c10_strict_accepted C K e hK2)
    subst hr
    obtain ⟨L, hL1, hL2, -⟩ := c08_payload_kept C hC _ _ _ h1
    refine ⟨fd1.evs, ?_⟩
    rw [h1]
    have : fd1.src = payload := by
      have key : ∀ (A B X Y : Bytes), c! '\n' ∉ A → c! '\n' ∉ B → A ++ c! '\n' :: X = B ++ c! '\n' :: Y → X = Y := by
        intro A
        induction A with
        | nil =>
          intro B X Y _ hB h
          cases B with
          | nil => simpa using h
          | cons b B => simp at h; simp [h.1] at hB
        | cons a A ih =>
          intro B X Y hA hB h
          cases B with
          | nil => simp at h; simp [h.1] at hA
          | cons b B =>
            simp only [List.mem_cons, not_or] at hA hB
            simp only [List.cons_append, List.cons.injEq] at h
            exact ih B X Y hA.2 hB.2 h.2
      exact (key _ _ _ _ hnl hL2 hL1).symm
    rw [← this]

/-- a concrete instance of the hypotheses, for both families -/
example : EndsOk ⟨v4prefix ++ [5,6,7,8], (1, 187), v4prefix ++ [1,2,3,4], (0, 80)⟩ ∧
    SameFamily ⟨v4prefix ++ [5,6,7,8], (1, 187), v4prefix ++ [1,2,3,4], (0, 80)⟩ ∧
    EndsOk ⟨List.replicate 16 7, (1, 187), List.replicate 16 9, (0, 80)⟩ ∧
    SameFamily ⟨List.replicate 16 7, (1, 187), List.replicate 16 9, (0, 80)⟩ ∧
    116 ≤ Rw.dataCount (List.replicate 120 (.data 3)) := by
  refine ⟨by unfold EndsOk; decide, by unfold SameFamily; decide, by unfold EndsOk; decide,
    by unfold SameFamily; decide, by decide +kernel⟩
example : headerText cCodec ⟨v4prefix ++ [5,6,7,8], (1, 187), v4prefix ++ [1,2,3,4], (0, 80)⟩
    = b!"PROXY TCP4 1.2.3.4 5.6.7.8 80 443\r\n" := by decide +kernel

/-- C07, limit: endpoints of mixed families produce a header that the parser rejects
(the family word comes from the remote address alone). -/
theorem c07_mixed_families_rejected :
    ∃ fd', get cCodec ⟨headerText cCodec ⟨List.replicate 16 7, (1, 187), v4prefix ++ [1,2,3,4], (0, 80)⟩, plenty 127⟩
      = .ok (some (none, fd')) := ⟨⟨[], plenty 60⟩, by decide +kernel⟩

end Proxy
