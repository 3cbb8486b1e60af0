import Verif.Smtp.GreyProps
import Verif.Relay.ClearProps
/-
C52: STARTTLS in the SMTP front end.
-/
namespace Smtp
open Str Str.Spec

section
variable {cfg : Cfg} {net : List Ev} {cin : Bytes} {tls0 : Bool} {acks : Bytes} {gin : List Bytes}
  {wr gwr : List Bool} {x : Int} {s : S}

/-- C52: what follows the STARTTLS request, in every session: the queued
cleartext is thrown away, then the acknowledgement is awaited; if it is not a
zero byte the session is over; otherwise the child gets RSET and its reply is
taken (and not shown to the client); then the client's next line is a command
line, no sender and no recipient is remembered, and STARTTLS is no longer
offered. The session may end between any two of these. -/
theorem c52_order (h : Ran cfg net cin tls0 acks gin wr gwr x s) (pre post : List Act) (d : Bytes)
    (hl : s.log = pre ++ .ctl d :: post) :
    d = [0] ∧ (∃ pre', pre = pre' ++ [.client (Spec.beforeNul (Spec.own cfg b!"220 ready to start TLS (#2.0.0)"))]) ∧
    (post = [] ∨ ∃ n p1, post = .discard n :: p1 ∧
      (p1 = [] ∨ ∃ b p2, p1 = .ack b :: p2 ∧ (b ≠ 0 → p2 = [] ∧ x = 111) ∧
        (p2 = [] ∨ ∃ p3, p2 = .child b!"RSET\r\n" :: p3 ∧
          (p3 = [] ∨ ∃ r p4, p3 = .reply r :: p4 ∧
            Spec.Trace cfg tls0 .start (pre ++ [.ctl d, .discard n, .ack b, .child b!"RSET\r\n", .reply r])
              (.ready ⟨false, none, none⟩) ∧
            (p4 = [] ∨ ∃ raw p5, p4 = .line raw :: p5))))) := by
  have hdead := h.dead
  obtain ⟨p, ht, hx⟩ := c47_trace h
  rw [hl] at ht
  obtain ⟨q, q', t1, t2, t3⟩ := Trace.split ht
  cases t2
  refine ⟨rfl, ?_, ?_⟩
  · rcases Trace.last t1 with ⟨_, e⟩ | ⟨l', a, q, rfl, _, hs⟩
    · cases e
    · cases hs; exact ⟨l', rfl⟩
  have T1 := Spec.Trace.snoc _ _ _ _ _ t1 (.request _)
  cases post with
  | nil => exact .inl rfl
  | cons a p1 =>
    refine .inr ?_
    obtain ⟨q1, u1, t4⟩ := Trace.head t3
    cases u1
    rename_i n
    refine ⟨n, p1, rfl, ?_⟩
    have T2 := Spec.Trace.snoc _ _ _ _ _ T1 (.discard _ n)
    cases p1 with
    | nil => exact .inl rfl
    | cons a p2 =>
      refine .inr ?_
      obtain ⟨q1, u1, t5⟩ := Trace.head t4
      cases u1
      case nack b hb =>
        have : p2 = [] := by
          cases p2 with
          | nil => rfl
          | cons a p2 => obtain ⟨q1, u1, _⟩ := Trace.head t5; cases u1
        subst this
        refine ⟨b, [], rfl, fun _ => ⟨rfl, ?_⟩, .inl rfl⟩
        rcases hx with hx | ⟨_, hp⟩
        · exact hx.1
        · subst hp
          rcases Trace.last t5 with ⟨_, e⟩ | ⟨l', a, q, e, _⟩
          · cases e
          · simp at e
      case ack =>
        have T3 := Spec.Trace.snoc _ _ _ _ _ T2 (.ack _)
        refine ⟨0, p2, rfl, fun e => absurd rfl e, ?_⟩
        cases p2 with
        | nil => exact .inl rfl
        | cons a p3 =>
          refine .inr ?_
          obtain ⟨q1, u1, t6⟩ := Trace.head t5
          cases u1
          have T4 := Spec.Trace.snoc _ _ _ _ _ T3 (.rset _)
          refine ⟨p3, rfl, ?_⟩
          cases p3 with
          | nil => exact .inl rfl
          | cons a p4 =>
            refine .inr ?_
            obtain ⟨q1, u1, t7⟩ := Trace.head t6
            cases u1
            rename_i r hh sep t hr
            refine ⟨r, p4, rfl, ?_, ?_⟩
            · have T5 := Spec.Trace.snoc _ _ _ _ _ T4 (.rsetReply _ _ _ _ _ hr)
              simpa using T5
            · cases p4 with
              | nil => exact .inl rfl
              | cons a p5 =>
                obtain ⟨q1, u1, t8⟩ := Trace.head t7
                cases u1
                exact .inr ⟨_, _, rfl⟩

/-- STARTTLS is not possible (any more). -/
def Spec.NoTls : Spec.Phase → Prop
  | .start | .greeting _ | .offered _ | .requested _ | .drained _ | .acked _ | .reset _ => False
  | .ready c | .got c _ | .asked c _ | .answered c _ _ | .sent c _ | .replied c _ _ | .body c | .bodyLine c _
  | .bodySent c | .bodyReplied c _ => c.tls = false
  | .over | .refused => True

theorem after_tls (c : Spec.Ctx) (raw : Bytes) : (c.after raw).tls = c.tls := by
  unfold Spec.Ctx.after
  split
  · rfl
  · split <;> rfl
  · rfl

theorem NoTls.step {p q : Spec.Phase} {a : Act} (h : Spec.NoTls p) (hs : Spec.Step cfg tls0 p a q) :
    Spec.NoTls q ∧ ∀ d, a ≠ .ctl d := by
  cases hs <;> simp_all [Spec.NoTls, after_tls, Spec.Ctx.clear]

theorem NoTls.trace {p q : Spec.Phase} {l : List Act} (ht : Spec.Trace cfg tls0 p l q) (h : Spec.NoTls p) :
    Spec.NoTls q ∧ ∀ d, .ctl d ∉ l := by
  induction ht with
  | nil => exact ⟨h, by simp⟩
  | snoc l q1 a r _ hs ih =>
    obtain ⟨h1, h2⟩ := ih
    obtain ⟨h3, h4⟩ := NoTls.step h1 hs
    refine ⟨h3, fun d hm => ?_⟩
    rcases List.mem_append.mp hm with hm | hm
    · exact h2 d hm
    · exact h4 d (List.mem_singleton.mp hm).symm

/-- C52: encryption is requested at most once in a session, and never if it was
not on offer at its start. -/
theorem c52_once (h : Ran cfg net cin tls0 acks gin wr gwr x s) (pre post : List Act) (d : Bytes)
    (hl : s.log = pre ++ .ctl d :: post) : tls0 = true ∧ ∀ d', .ctl d' ∉ post ∧ .ctl d' ∉ pre := by
  have key : ∀ pre post d, s.log = pre ++ .ctl d :: post → ∀ d', .ctl d' ∉ post := by
    intro pre post d hl d'
    obtain ⟨p, ht, _⟩ := c47_trace h
    rw [hl] at ht
    rcases (c52_order h pre post d hl).2.2 with rfl | ⟨n, p1, rfl, rfl | ⟨b, p2, rfl, _, rfl | ⟨p3, rfl, rfl | ⟨r, p4, rfl, T, _⟩⟩⟩⟩
    · simp
    · simp
    · simp
    · simp
    · have : Spec.Trace cfg tls0 (.ready ⟨false, none, none⟩) p4 p := by
        have e : pre ++ Act.ctl d :: Act.discard n :: Act.ack b :: Act.child b!"RSET\r\n" :: Act.reply r :: p4 =
            (pre ++ [Act.ctl d, .discard n, .ack b, .child b!"RSET\r\n"]) ++ .reply r :: p4 := by simp
        rw [e] at ht
        obtain ⟨q, q', u1, u2, u3⟩ := Trace.split ht
        have T' : Spec.Trace cfg tls0 .start ((pre ++ [Act.ctl d, .discard n, .ack b, .child b!"RSET\r\n"]) ++ [.reply r])
          (.ready ⟨false, none, none⟩) := by simpa using T
        have := Trace.det T' (.snoc _ _ _ _ _ u1 u2)
        rw [this]; exact u3
      have := (NoTls.trace this rfl).2 d'
      simp [this]
  refine ⟨?_, fun d' => ⟨key pre post d hl d', fun hm => ?_⟩⟩
  · cases tls0 with
    | true => rfl
    | false =>
      exfalso
      obtain ⟨p, ht, _⟩ := c47_trace h
      rw [hl] at ht
      have noctl : ∀ (l : List Act) (q : Spec.Phase), Spec.Trace cfg false .start l q →
          (q = .start ∨ (∃ r, q = .greeting r) ∨ Spec.NoTls q) ∧ ∀ d, .ctl d ∉ l := by
        intro l q ht
        induction ht with
        | nil => exact ⟨.inl rfl, by simp⟩
        | snoc l q1 a r _ hs ih =>
          obtain ⟨h1, h2⟩ := ih
          have : (r = .start ∨ (∃ r', r = .greeting r') ∨ Spec.NoTls r) ∧ ∀ d, a ≠ .ctl d := by
            rcases h1 with rfl | ⟨r', rfl⟩ | h1
            · cases hs; exact ⟨.inr (.inl ⟨_, rfl⟩), by simp⟩
            · cases hs; exact ⟨.inr (.inr rfl), by simp⟩
            · exact ⟨.inr (.inr (NoTls.step h1 hs).1), (NoTls.step h1 hs).2⟩
          refine ⟨this.1, fun d hm => ?_⟩
          rcases List.mem_append.mp hm with hm | hm
          · exact h2 d hm
          · exact this.2 d (List.mem_singleton.mp hm).symm
      exact (noctl _ _ ht).2 d (by simp)
  · obtain ⟨u, v, rfl⟩ := List.append_of_mem hm
    exact key u (v ++ .ctl d :: post) d' (by rw [hl]; simp) d (by simp)

/-- What is left is the end of what was delivered. -/
theorem Taken.suffix {N : List Ev} {log : List Act} {rest : Bytes} (h : Spec.Taken N log rest) :
    rest <:+ evStream N := by
  induction h with
  | nil => exact List.suffix_refl _
  | line log raw rest h ih => exact List.IsSuffix.trans ⟨raw ++ [c! '\n'], by simp⟩ ih
  | discard log lost t h hi ih => exact List.IsSuffix.trans (List.suffix_append _ _) ih
  | other log a rest h1 h2 h ih => exact ih

theorem Taken.after {N : List Ev} {pre post : List Act} {rest : Bytes}
    {n : Nat} (h : Spec.Taken N (pre ++ .discard n :: post) rest) (hn : ∀ k, .discard k ∉ post) :
    ∃ t, Spec.Idle N t ∧ (n = (evStream t).length ∧ evStream t <:+ evStream N) ∧ Spec.Taken t post rest := by
  generalize hl : pre ++ .discard n :: post = l at h
  induction h generalizing post with
  | nil => simp at hl
  | line log raw rest h ih =>
    rcases List.eq_nil_or_concat post with rfl | ⟨post, a, rfl⟩
    · have := (List.append_inj' hl rfl).2; simp at this
    · rw [List.concat_eq_append, ← List.cons_append, ← List.append_assoc] at hl
      obtain ⟨e1, e2⟩ := List.append_inj' hl rfl
      cases e2
      obtain ⟨t, h1, h0, h2⟩ := ih (by intro k hk; exact hn k (by simp [hk])) e1
      rw [List.concat_eq_append]
      exact ⟨t, h1, h0, .line _ _ _ h2⟩
  | discard log lost t h hi ih =>
    rcases List.eq_nil_or_concat post with rfl | ⟨post, a, rfl⟩
    · have := (List.append_inj' hl rfl).2
      simp at this
      exact ⟨t, hi, ⟨this, List.IsSuffix.trans (List.suffix_append _ _) (Taken.suffix h)⟩, .nil⟩
    · rw [List.concat_eq_append, ← List.cons_append, ← List.append_assoc] at hl
      obtain ⟨e1, e2⟩ := List.append_inj' hl rfl
      cases e2
      exact absurd (by simp) (hn (evStream t).length)
  | other log a rest h1 h2 h ih =>
    rcases List.eq_nil_or_concat post with rfl | ⟨post, a, rfl⟩
    · have := (List.append_inj' hl rfl).2
      simp at this; exact absurd this.symm (h2 _)
    · rw [List.concat_eq_append, ← List.cons_append, ← List.append_assoc] at hl
      obtain ⟨e1, e2⟩ := List.append_inj' hl rfl
      cases e2
      obtain ⟨t, h3, h0, h4⟩ := ih (by intro k hk; exact hn k (by simp [hk])) e1
      rw [List.concat_eq_append]
      exact ⟨t, h3, h0, .other _ _ _ h1 h2 h4⟩

/-- C52 as far as the front end goes: after the STARTTLS request, the lines taken
are those the input delivered after some later moment at which nothing was
readable; what was queued before is never interpreted. Missing from C52: that
everything delivered after that moment was encrypted; see `c52_race`. -/
theorem c52_discarded_partial (h : Ran cfg net cin tls0 acks gin wr gwr x s) (pre post : List Act) (d : Bytes)
    (n : Nat) (hl : s.log = pre ++ .ctl d :: .discard n :: post) :
    ∃ t, Spec.Idle net t ∧ n = (evStream t).length ∧ evStream t <:+ evStream net ∧ (∀ k, .discard k ∉ post) ∧
      ∃ rest, Spec.Taken t post rest := by
  obtain ⟨rest, hT⟩ := c47_lines h
  rw [hl] at hT
  have hn : ∀ k, .discard k ∉ post := by
    intro k hm
    obtain ⟨u, v, rfl⟩ := List.append_of_mem hm
    obtain ⟨p, ht, _⟩ := c47_trace h
    rw [hl] at ht
    have e : pre ++ .ctl d :: .discard n :: (u ++ .discard k :: v) = (pre ++ .ctl d :: .discard n :: u) ++ .discard k :: v := by simp
    rw [e] at ht
    obtain ⟨q, q', u1, u2, _⟩ := Trace.split ht
    cases u2
    rcases Trace.last u1 with ⟨e, _⟩ | ⟨l', a, q, e, _, hs⟩
    · simp at e
    · cases hs
      rcases List.eq_nil_or_concat u with rfl | ⟨u, b, rfl⟩
      · have := congrArg List.getLast? e; simp at this
      · have : b = .ctl [0] := by
          have e : (pre ++ .ctl d :: .discard n :: u) ++ [b] = l' ++ [.ctl [0]] := by
            rw [← e]; simp
          have := (List.append_inj' e rfl).2
          simpa using this
        subst this
        exact ((c52_once h pre _ d hl).2 [0]).1 (by simp)
  have e : pre ++ .ctl d :: .discard n :: post = (pre ++ [.ctl d]) ++ .discard n :: post := by simp
  rw [e] at hT
  obtain ⟨t, h1, h0, h2⟩ := Taken.after hT hn
  exact ⟨t, h1, h0.1, h0.2, hn, _, h2⟩

end

/-- C52: the front end throws away what is queued when it has asked for
encryption, up to the first moment at which nothing is readable. -/
theorem c52_discard (s : S) (queued : List Bytes) (t : List Ev) (hq : ∀ d ∈ queued, d ≠ [])
    (hs : s.net = queued.map .data ++ .gap :: t) :
    ∃ s', discard s = .ok () s' ∧ stream s' = evStream t := by
  have : ∀ q : List Bytes, (∀ d ∈ q, d ≠ []) → drain (q.map .data ++ .gap :: t) = some t := by
    intro q hq
    induction q with
    | nil => rfl
    | cons d q ih =>
      cases d with
      | nil => simp at hq
      | cons b d => exact ih fun d hd => hq d (List.mem_cons_of_mem _ hd)
  refine ⟨_, by rw [discard, hs, this queued hq], rfl⟩

/-- A session with STARTTLS: the NOOPs queued behind it are thrown away. -/
example : ∃ s, Ran ⟨none, false, false, []⟩ [.data b!"STARTTLS\r\nNOOP\r\n", .data b!"NO", .data b!"OP\r\n", .gap, .data b!"QUIT\r\n"]
    b!"220 hi\r\n250 reset\r\n221 bye\r\n" true [0] [] [] [] 0 s ∧
    s.log = [.reply b!"220 hi\r\n", .client b!"220 hi\r\n", .line b!"STARTTLS\r",
      .client b!"220 ready to start TLS (#2.0.0)\r\n", .ctl [0], .discard 6, .ack 0, .child b!"RSET\r\n",
      .reply b!"250 reset\r\n", .line b!"QUIT\r", .child b!"QUIT\r\n", .reply b!"221 bye\r\n", .client b!"221 bye\r\n"] :=
  ran_check _ (by decide +kernel)

/-- A session in which the request is turned down. -/
example : ∃ s, Ran ⟨none, false, false, []⟩ [.data b!"STARTTLS\r\nNOOP\r\n"]
    b!"220 hi\r\n" true [1] [] [] [] 111 s ∧
    s.log = [.reply b!"220 hi\r\n", .client b!"220 hi\r\n", .line b!"STARTTLS\r",
      .client b!"220 ready to start TLS (#2.0.0)\r\n", .ctl [0], .discard 0, .ack 1] :=
  ran_check _ (by decide +kernel)

open Relay Relay.Clear in
/-- What the relay of the cleartext phase does in `c52_race`. -/
def raceEvents : List Relay.Clear.Ev :=
  [-- "STARTTLS" arrives and is passed on,
   ⟨some ⟨false, false, true, false, false, false⟩, .data 9, .data 0, [], .again⟩,
   ⟨some ⟨false, true, false, false, false, false⟩, .data 0, .data 9, [], .again⟩,
   -- "QUIT" arrives;
   ⟨some ⟨false, false, true, false, false, false⟩, .data 5, .data 0, [], .again⟩,
   -- the poll finds room for it. Before the relay writes it the front end sends its
   -- reply and its request, and throws away its input. Then the relay writes.
   ⟨some ⟨false, true, false, false, false, false⟩, .data 0, .data 5, [], .again⟩,
   -- The front end's reply is taken and passed on; then the request is granted.
   ⟨some ⟨false, false, false, true, true, false⟩, .data 32, .data 0, [], .again⟩,
   ⟨some ⟨true, false, false, false, false, false⟩, .data 0, .data 32, [], .again⟩,
   ⟨some ⟨false, false, false, false, true, false⟩, .data 0, .data 0, [.data 0], .again⟩]

/-- C52 is violated in a race: the front end throws away its input before the relay
acknowledges the request, so cleartext that the relay writes in between (in a round
whose poll came before the request) is interpreted after the switch to TLS. Here
the client sends STARTTLS and QUIT in cleartext, and QUIT is carried out. -/
theorem c52_race :
    (∃ sr, Relay.Clear.loop (Relay.Clear.start (List.replicate 8192 0) (List.replicate 8192 0)
          b!"STARTTLS\r\nQUIT\r\n" b!"220 ready to start TLS (#2.0.0)\r\n" [0]) raceEvents = .ok (sr, some .starttls) ∧
      Relay.wroteOf .childin sr.w.log = b!"STARTTLS\r\nQUIT\r\n" ∧ .write .childin b!"QUIT\r\n" ∈ sr.w.log) ∧
    ∃ s, Ran ⟨none, false, false, []⟩ [.data b!"STARTTLS\r\n", .gap, .data b!"QUIT\r\n"]
      b!"220 hi\r\n250 reset\r\n221 bye\r\n" true [0] [] [] [] 0 s ∧
    ∃ pre post, s.log = pre ++ .ack 0 :: post ∧ .line b!"QUIT\r" ∈ post ∧ .child b!"QUIT\r\n" ∈ post := by
  refine ⟨?_, ?_⟩
  · obtain ⟨s, why, e, _⟩ := Relay.Clear.c41_relay (List.replicate 8192 0) (List.replicate 8192 0)
      b!"STARTTLS\r\nQUIT\r\n" b!"220 ready to start TLS (#2.0.0)\r\n" [0] List.length_replicate List.length_replicate raceEvents
    have k : (match Relay.Clear.loop (Relay.Clear.start (List.replicate 8192 0) (List.replicate 8192 0)
          b!"STARTTLS\r\nQUIT\r\n" b!"220 ready to start TLS (#2.0.0)\r\n" [0]) raceEvents with
      | .ok (s, some .starttls) => Relay.wroteOf .childin s.w.log == b!"STARTTLS\r\nQUIT\r\n" &&
          decide (.write .childin b!"QUIT\r\n" ∈ s.w.log)
      | _ => false) = true := by decide +kernel
    rw [e] at k
    refine ⟨s, ?_⟩
    rw [e]
    cases why with
    | none => simp at k
    | some w =>
      cases w <;> simp at k
      exact ⟨rfl, by simpa using k⟩
  · obtain ⟨s, h1, h2⟩ := ran_check (cfg := ⟨none, false, false, []⟩)
      (net := [.data b!"STARTTLS\r\n", .gap, .data b!"QUIT\r\n"])
      (cin := b!"220 hi\r\n250 reset\r\n221 bye\r\n") (tls0 := true) (acks := [0]) (gin := []) (wr := []) (gwr := []) (x := 0)
      (fun s => s.log = [.reply b!"220 hi\r\n", .client b!"220 hi\r\n", .line b!"STARTTLS\r",
      .client b!"220 ready to start TLS (#2.0.0)\r\n", .ctl [0], .discard 6, .ack 0, .child b!"RSET\r\n",
      .reply b!"250 reset\r\n", .line b!"QUIT\r", .child b!"QUIT\r\n", .reply b!"221 bye\r\n", .client b!"221 bye\r\n"])
      (by decide +kernel)
    refine ⟨s, h1, [.reply b!"220 hi\r\n", .client b!"220 hi\r\n", .line b!"STARTTLS\r",
      .client b!"220 ready to start TLS (#2.0.0)\r\n", .ctl [0], .discard 6], _, h2, ?_, ?_⟩ <;> decide
end Smtp
