import Verif.Smtp.Props
/-
C50: limits of the front end.
-/
namespace Smtp
open Str Str.Spec

/-- C50: at the end of every session, wherever it was cut off, nothing the front
end accumulates is longer than its limit: a client's line (with CRLF), a reply
(with the log id added), sender and recipient (with their NUL), the list of
recipients and their number. -/
theorem c50_limits (cfg : Cfg) (net : List Ev) (cin : Bytes) (tls0 : Bool) (acks : Bytes) (gin : List Bytes)
    (wr gwr : List Bool) (x : Int) (s : S) (h : Ran cfg net cin tls0 acks gin wr gwr x s) :
    s.line.length ≤ 4096 + 2 ∧ s.cline.length ≤ 4096 + (cfg.id.map fun i => i.length).getD 0 + 5 ∧
    s.mailfrom.length ≤ 2048 + 1 ∧ s.rcptto.length ≤ 2048 + 1 ∧ s.rcpttodata.length ≤ 65536 ∧
    s.rcptcount ≤ 256 ∧
    (∀ raw, Act.line raw ∈ s.log → raw.length ≤ 4096) := by
  obtain ⟨p, ⟨ht, hl⟩, _⟩ := h.dead
  refine ⟨hl.line, ?_, hl.mailfrom, hl.rcptto, hl.rcpttodata, hl.rcptcount, ?_⟩
  · have := hl.cline
    unfold idLen at this
    cases hid : cfg.id with
    | none => simpa [hid] using this
    | some i => simpa [hid] using this
  · intro raw hm
    obtain ⟨pre, post, e⟩ := List.append_of_mem hm
    rw [e] at ht
    obtain ⟨q, q', _, hs, _⟩ := Trace.split ht
    cases hs <;> assumption

/-- C50: a line of more than 4096 bytes ends the session; nothing of it is used. -/
theorem c50_line (s : S) (l rest : Bytes) (hs : stream s = l ++ rest) (hn : c! '\n' ∉ l) (hl : l.length > 4096) :
    ∃ s', readline s = .die 111 s' ∧ s'.log = s.log := by
  have := readline_inv s
  cases e : readline s with
  | ub => rw [e] at this; exact this.elim
  | die x s' =>
    rw [e] at this
    obtain ⟨rfl, buf, net, line, _, rfl, _⟩ := this
    exact ⟨_, rfl, rfl⟩
  | ok u s' =>
    exfalso
    rw [e] at this
    obtain ⟨l', rest', buf, net, h1, h2, h3, _⟩ := this
    rw [hs] at h1
    have : l' ++ [c! '\n'] <+: l := by
      refine List.prefix_of_prefix_length_le (l₃ := l ++ rest) ⟨rest', by rw [h1]; simp⟩ ⟨rest, rfl⟩ ?_
      simp; omega
    exact hn (this.subset (by simp))

/-- C50: so does a reply of the child that does not end within 4096 bytes; none
of it reaches the client. -/
theorem c50_reply (cfg : Cfg) (append : Option Bytes) (b : Bool) (s : S)
    (h : ∀ r h sep t, Spec.Reply r h sep t → r <+: s.cin → r.length > 4096) :
    ∃ s', smtpline cfg append b s = .die 111 s' ∧ ∀ d, Act.client d ∈ s'.log → Act.client d ∈ s.log := by
  have := smtpline_inv cfg append b s
  cases e : smtpline cfg append b s with
  | ub => rw [e] at this; exact this.elim
  | die x s' =>
    rw [e] at this
    obtain ⟨rfl, cin, cline, _, _, rfl | ⟨r, hh, sep, t, a, h1, _, _, _, rfl⟩⟩ := this
    · exact ⟨_, rfl, fun d h => h⟩
    · exact ⟨_, rfl, fun d h => by simpa using h⟩
  | ok u s' =>
    exfalso
    rw [e] at this
    obtain ⟨r, hh, sep, t, rest, h1, h2, h3, _⟩ := this
    have := h r hh sep t h1 ⟨rest, h2.symm⟩
    omega

theorem mailDiff (raw : Bytes) (a : Bytes) (h : Spec.arg b!"mail from:" raw = some a) :
    10 ≤ (Spec.forward raw).length ∧ case_diffb (Spec.forward raw ++ [0]) 10 b!"mail from:\x00" = .ok 0 ∧
      argument ((Spec.forward raw).drop 10) = a := by
  obtain ⟨h1, h2⟩ := arg_eq b!"mail from:" raw (by decide) (by decide) (by decide) (by decide)
  have hle : b!"mail from:".length ≤ (Spec.forward raw).length := by
    apply Classical.byContradiction
    intro hc
    rw [h2 hc] at h; cases h
  obtain ⟨d, e1, e2, e3⟩ := h1 hle
  have hd : d = 0 := e2.mpr (by rw [h]; rfl)
  subst hd
  have := e3 rfl
  rw [h] at this
  injection this with this
  exact ⟨hle, e1, this.symm⟩

theorem rcptDiff (raw : Bytes) (a : Bytes) (h : Spec.arg b!"rcpt to:" raw = some a) :
    8 ≤ (Spec.forward raw).length ∧ case_diffb (Spec.forward raw ++ [0]) 8 b!"rcpt to:\x00" = .ok 0 ∧
      argument ((Spec.forward raw).drop 8) = a := by
  obtain ⟨h1, h2⟩ := arg_eq b!"rcpt to:" raw (by decide) (by decide) (by decide) (by decide)
  have hle : b!"rcpt to:".length ≤ (Spec.forward raw).length := by
    apply Classical.byContradiction
    intro hc
    rw [h2 hc] at h; cases h
  obtain ⟨d, e1, e2, e3⟩ := h1 hle
  have hd : d = 0 := e2.mpr (by rw [h]; rfl)
  subst hd
  have := e3 rfl
  rw [h] at this
  injection this with this
  exact ⟨hle, e1, this.symm⟩

/-- C50: a sender of more than 2048 bytes ends the session before anything is
forwarded; a sender of up to 2048 bytes is remembered whole and the command is
handled like any other. -/
theorem c50_sender (cfg : Cfg) (s : S) (raw a : Bytes) (hline : s.line = Spec.forward raw)
    (ha : Spec.arg b!"mail from:" raw = some a) :
    (a.length > 2048 → ∃ s', smtpMail cfg s = .die 111 s' ∧ s'.log = s.log) ∧
    (a.length ≤ 2048 → smtpMail cfg s = (do let _ ← copy cfg true) { s with
      mailfrom := a ++ [0], rcptto := [], rcpttodata := [], rcptcount := 0 }) := by
  obtain ⟨h1, h2, h3⟩ := mailDiff raw a ha
  have h1' : (Spec.forward raw).length ≥ 10 := h1
  constructor
  · intro hl
    have hl' : a.length > maxMailfrom := hl
    simp only [smtpMail, bind_def, resetTransaction, modify_def, get_def, hline, ite_app, h1', if_true, h2,
      lift_ok, h3, hl', die_def]
    exact ⟨_, rfl, rfl⟩
  · intro hl
    have hl' : ¬ a.length > maxMailfrom := by simp only [maxMailfrom]; omega
    simp only [smtpMail, bind_def, resetTransaction, modify_def, get_def, hline, ite_app, h1', if_true, h2,
      lift_ok, h3, hl', if_false]

/-- C50: a recipient of more than 2048 bytes, the 257th recipient, and a
recipient that makes the list longer than 65536 bytes end the session before
anything is forwarded; any other is remembered whole and counted. -/
theorem c50_recipient (cfg : Cfg) (s : S) (raw a : Bytes) (hline : s.line = Spec.forward raw)
    (ha : Spec.arg b!"rcpt to:" raw = some a) :
    (a.length > 2048 ∨ s.rcptcount ≥ 256 ∨ s.rcpttodata.length + a.length + 1 > 65536 →
      ∃ s', smtpRcpt cfg s = .die 111 s' ∧ s'.log = s.log) ∧
    (a.length ≤ 2048 ∧ s.rcptcount < 256 ∧ s.rcpttodata.length + a.length + 1 ≤ 65536 →
      rememberRcpt s = .ok () { s with
        rcpttodata := s.rcpttodata ++ a ++ b!",", rcptto := a ++ [0], rcptcount := s.rcptcount + 1 }) := by
  obtain ⟨h1, h2, h3⟩ := rcptDiff raw a ha
  have h1' : (Spec.forward raw).length ≥ 8 := h1
  constructor
  · intro h
    suffices h : ∃ s', rememberRcpt s = .die 111 s' ∧ s'.log = s.log by
      obtain ⟨s', e1, e2⟩ := h
      exact ⟨s', by simp only [smtpRcpt, bind_def, e1], e2⟩
    simp only [rememberRcpt, bind_def, get_def, hline, ite_app, h1', if_true, h2, lift_ok, h3, die_def]
    by_cases q1 : a.length > maxRcptto
    · rw [if_pos q1]; exact ⟨_, rfl, rfl⟩
    · rw [if_neg q1]
      by_cases q2 : s.rcptcount ≥ maxRcpts
      · rw [if_pos q2]; exact ⟨_, rfl, rfl⟩
      · rw [if_neg q2]
        by_cases q3 : s.rcpttodata.length + a.length + 1 > maxRcpttodata
        · rw [if_pos q3]; exact ⟨_, rfl, rfl⟩
        · simp only [maxRcptto, maxRcpts, maxRcpttodata] at q1 q2 q3; omega
  · intro h
    have q1 : ¬ a.length > maxRcptto := by simp only [maxRcptto]; omega
    have q2 : ¬ s.rcptcount ≥ maxRcpts := by simp only [maxRcpts]; omega
    have q3 : ¬ s.rcpttodata.length + a.length + 1 > maxRcpttodata := by simp only [maxRcpttodata]; omega
    simp only [rememberRcpt, bind_def, get_def, hline, ite_app, h1', if_true, h2, lift_ok, h3, q1, q2, q3, if_false,
      modify_def]

/-- A line with a sender and one with a recipient. -/
example : Spec.arg b!"mail from:" b!"Mail From:<a@b> SIZE=1\r" = some b!"<a@b>" ∧
    Spec.arg b!"rcpt to:" b!"RCPT TO:<c@d>\r" = some b!"<c@d>" := by decide

end Smtp
