import Verif.Session.Joint
import Verif.Session.Props
import Verif.Smtp.StarttlsProps
/-
C90: STARTTLS across the two processes, the relay and the SMTP front end.
-/
namespace Session.Joint
open Io Relay

/-! ### Histories -/

theorem ofRelay_append (a b : List Move) : ofRelay (a ++ b) = ofRelay a ++ ofRelay b := by simp [ofRelay]
theorem ofFront_append (a b : List Move) : ofFront (a ++ b) = ofFront a ++ ofFront b := by simp [ofFront]
theorem ofRelay_inr (a : Smtp.Act) (H : List Move) : ofRelay (.inr a :: H) = ofRelay H := rfl
theorem ofFront_inr (a : Smtp.Act) (H : List Move) : ofFront (.inr a :: H) = a :: ofFront H := by simp [ofFront]
theorem ofRelay_inl (a : Act Fd) (H : List Move) : ofRelay (.inl a :: H) = a :: ofRelay H := by simp [ofRelay]
theorem ofFront_inl (a : Act Fd) (H : List Move) : ofFront (.inl a :: H) = ofFront H := rfl

theorem said_append (a b : List Smtp.Act) : said (a ++ b) = said a ++ said b := by simp [said]
theorem acked_append (a b : List Smtp.Act) : acked (a ++ b) = acked a ++ acked b := by simp [acked]
theorem lines_append (a b : List Smtp.Act) : lines (a ++ b) = lines a ++ lines b := by simp [lines]

theorem front_split {H : List Move} {A B : List Smtp.Act} {a : Smtp.Act} (h : ofFront H = A ++ a :: B) :
    ∃ p q, H = p ++ .inr a :: q ∧ ofFront p = A ∧ ofFront q = B := by
  induction H generalizing A with
  | nil => simp [ofFront] at h
  | cons m H ih =>
    cases m with
    | inl m =>
      rw [ofFront_inl] at h
      obtain ⟨p, q, rfl, h1, h2⟩ := ih h
      exact ⟨.inl m :: p, q, rfl, by rw [ofFront_inl, h1], h2⟩
    | inr m =>
      rw [ofFront_inr] at h
      cases A with
      | nil => cases h; exact ⟨[], H, rfl, rfl, rfl⟩
      | cons b A =>
        rw [List.cons_append, List.cons.injEq] at h
        obtain ⟨rfl, h⟩ := h
        obtain ⟨p, q, rfl, h1, h2⟩ := ih h
        exact ⟨.inr m :: p, q, rfl, by rw [ofFront_inr, h1], h2⟩

theorem relay_split {H : List Move} {A B : List (Act Fd)} {a : Act Fd} (h : ofRelay H = A ++ a :: B) :
    ∃ p q, H = p ++ .inl a :: q ∧ ofRelay p = A ∧ ofRelay q = B := by
  induction H generalizing A with
  | nil => simp [ofRelay] at h
  | cons m H ih =>
    cases m with
    | inr m =>
      rw [ofRelay_inr] at h
      obtain ⟨p, q, rfl, h1, h2⟩ := ih h
      exact ⟨.inr m :: p, q, rfl, by rw [ofRelay_inr, h1], h2⟩
    | inl m =>
      rw [ofRelay_inl] at h
      cases A with
      | nil => cases h; exact ⟨[], H, rfl, rfl, rfl⟩
      | cons b A =>
        rw [List.cons_append, List.cons.injEq] at h
        obtain ⟨rfl, h⟩ := h
        obtain ⟨p, q, rfl, h1, h2⟩ := ih h
        exact ⟨.inl m :: p, q, rfl, by rw [ofRelay_inl, h1], h2⟩

theorem mem_asked {l : List Smtp.Act} (h : asked l ≠ []) : ∃ d, .ctl d ∈ l := by
  simp only [asked, ne_eq, List.flatMap_eq_nil_iff, Classical.not_forall] at h
  obtain ⟨a, ha, h⟩ := h
  cases a <;> simp at h
  exact ⟨_, ha⟩

/-- The lines taken without throwing anything away. -/
theorem taken_lines {N : List Smtp.Ev} {l : List Smtp.Act} {rest : Bytes} (h : Smtp.Spec.Taken N l rest)
    (hn : ∀ k, .discard k ∉ l) : Smtp.evStream N = lines l ++ rest := by
  induction h with
  | nil => rfl
  | line log raw rest h ih =>
    rw [ih (fun k hk => hn k (by simp [hk])), lines_append]
    simp [lines]
  | discard log lost t h hi ih => exact absurd (by simp) (hn (Smtp.evStream t).length)
  | other log a rest h1 h2 h ih =>
    rw [ih (fun k hk => hn k (by simp [hk])), lines_append]
    cases a <;> simp [lines] at h1 ⊢

/-! ### The relay's side -/

section
variable {E : Type} {g : Tls.Engine E} {e0 : E} {fromcert : Bool} {ends : Proxy.Ends} {m1 m2 N C K : Bytes}
  {wevs : List WrEv} {evs1 : List Clear.Ev} {evs2 : List Tls.Ev} {pre : Bytes} {cl : List (Act Fd)} {t : Tls.St E}
  {y : Option Tls.Why}

/-- The end of the cleartext phase. -/
theorem relay_switch (hg : g.Sized) (h1 : m1.length = 8192) (h2 : m2.length = 8192)
    (h : session g e0 fromcert true ends m1 m2 N C K wevs evs1 evs2 = .ok (.tls pre cl t y)) :
    readOf .childout cl = wroteOf .peerout cl ∧ readOf .childout t.w.log = Tls.gaveApp t.w.log ∧
    wroteOf .childin t.w.log = Tls.tookApp t.w.log ∧
    ∃ q, cl = q ++ [.read .ctl [0], .close .ctl, .write .ack [0], .close .ack] ∧ wroteOf .ack q = [] := by
  have hs := shape_of hg h1 h2 h
  cases hs with
  | direct fd t y hd => cases hd
  | switched fd s t y hd hp hc ht =>
    obtain ⟨s', why', e', hpost⟩ := Clear.loop_post evs1 (Clear.run_start m1 m2 N C K h1 h2)
    rw [hc] at e'; cases e'
    obtain ⟨_, _, _, _, _, _, _, _, _, p11, _⟩ := hpost
    obtain ⟨_, _, _, _, q, hq, _, hq2⟩ := p11 rfl
    obtain ⟨b1, b2, b3, _⟩ := Tls.c45_moved hg s.w.op fromcert true e0 s.net s.chd evs2 t y ht
    exact ⟨((Clear.c43_switch m1 m2 N C K h1 h2 evs1 s _ hc).2 rfl).2.2.1.symm, b3, b1, q, hq, hq2⟩

theorem close_ext (w : W) (f : Fd) : ∃ x, (w.close f).log = w.log ++ x := by
  unfold W.close
  split
  · exact ⟨_, rfl⟩
  · exact ⟨[], by simp⟩

theorem finish_ext (w : W) : ∃ x, (finish w).log = w.log ++ x := by
  obtain ⟨a, ha⟩ := close_ext w .peerin
  obtain ⟨b, hb⟩ := close_ext (w.close .peerin) .peerout
  obtain ⟨c, hc⟩ := close_ext ((w.close .peerin).close .peerout) .ctl
  obtain ⟨d, hd⟩ := close_ext (((w.close .peerin).close .peerout).close .ctl) .ack
  obtain ⟨e, he⟩ := close_ext ((((w.close .peerin).close .peerout).close .ctl).close .ack) .childout
  obtain ⟨f, hf⟩ := close_ext (((((w.close .peerin).close .peerout).close .ctl).close .ack).close .childout) .childin
  exact ⟨a ++ (b ++ (c ++ (d ++ (e ++ f)))), by rw [finish, hf, he, hd, hc, hb, ha]; simp⟩

/-- Nothing is written to the acknowledgement pipe after the switch. -/
theorem relay_one_ack (hg : g.Sized) (h1 : m1.length = 8192) (h2 : m2.length = 8192)
    (h : session g e0 fromcert true ends m1 m2 N C K wevs evs1 evs2 = .ok (.tls pre cl t y)) :
    wroteOf .ack (cl ++ t.w.log) = [0] := by
  obtain ⟨_, _, _, q, hq, hq2⟩ := relay_switch hg h1 h2 h
  have hn := (c89_fds hg e0 fromcert true ends m1 m2 N C K h1 h2 wevs evs1 evs2 _ h).1
  obtain ⟨x, hx⟩ := finish_ext ⟨(Run.tls pre cl t y).fds, (Run.tls pre cl t y).log⟩
  rw [hx] at hn
  have h0 : wroteOf .ack t.w.log = [] := by
    simp only [wroteOf, List.flatMap_eq_nil_iff]
    intro a ha
    cases a with
    | write f d =>
      by_cases hf : f = .ack
      · subst hf
        obtain ⟨u, v, e⟩ := List.append_of_mem ha
        refine absurd ?_ (hn (cl ++ u) (.write .ack d) (v ++ x) (by simp [Run.log, e]) .ack rfl)
        rw [hq]; simp
      · simp [Act.wroteOn, hf]
    | _ => rfl
  rw [wroteOf_append, h0, hq, wroteOf_append, hq2]
  rfl

/-! ### C90 -/

variable {cfg : Smtp.Cfg} {net : List Smtp.Ev} {cin : Bytes} {tls0 : Bool} {acks : Bytes} {gin : List Bytes}
  {wr gwr : List Bool} {x : Int} {s : Smtp.S} {H : List Move}

/-- C90: a session is switched to TLS only after the client gave the STARTTLS command to the
front end, and the front end answered it with 220 and asked the relay. -/
theorem c90_request (hg : g.Sized) (h1 : m1.length = 8192) (h2 : m2.length = 8192)
    (h : session g e0 fromcert true ends m1 m2 N C K wevs evs1 evs2 = .ok (.tls pre cl t y))
    (hf : Smtp.Ran cfg net cin tls0 acks gin wr gwr x s) (J : Joined (cl ++ t.w.log) net s.log H) :
    ∃ a raw b, Smtp.Spec.verb raw = .starttls ∧ s.log = a ++ .line raw ::
      .client (Smtp.Spec.beforeNul (Smtp.Spec.own cfg b!"220 ready to start TLS (#2.0.0)")) :: .ctl [0] :: b := by
  obtain ⟨_, _, _, q, hq, _⟩ := relay_switch hg h1 h2 h
  have hr := J.request H [] (by simp)
  rw [J.relay, J.front] at hr
  have hne : asked s.log ≠ [] := by
    intro e
    rw [e, List.prefix_nil, readOf_append, List.append_eq_nil_iff, hq, readOf_append, List.append_eq_nil_iff] at hr
    have := hr.1.2
    revert this
    decide
  obtain ⟨d, hd⟩ := mem_asked hne
  obtain ⟨u, v, e⟩ := List.append_of_mem hd
  obtain ⟨rfl, ⟨u', rfl⟩, _⟩ := Smtp.c52_order hf u v d e
  obtain ⟨p, ht, _⟩ := Smtp.c47_trace hf
  rw [e] at ht
  obtain ⟨p1, p2, t1, t2, _⟩ := Smtp.Trace.split ht
  cases t2
  rcases Smtp.Trace.last t1 with ⟨e1, _⟩ | ⟨l, a, p3, e1, t3, t4⟩
  · simp at e1
  obtain ⟨rfl, e2⟩ := List.append_inj' e1 rfl
  clear e2
  cases t4
  rename_i raw hv _
  rcases Smtp.Trace.last t3 with ⟨_, e1⟩ | ⟨l, a, p3, rfl, t5, t6⟩
  · cases e1
  cases t6
  exact ⟨l, raw, v, hv, by rw [e]; simp⟩

/-- C90: the front end is told that the session is encrypted only if the relay has switched
to TLS, and it is told by one zero byte. -/
theorem c90_told (hg : g.Sized) (h1 : m1.length = 8192) (h2 : m2.length = 8192) {r : Run E}
    (h : session g e0 fromcert true ends m1 m2 N C K wevs evs1 evs2 = .ok r)
    (J : Joined r.log net s.log H) {b : Byte} (hb : .ack b ∈ s.log) :
    b = 0 ∧ acked s.log = [0] ∧ ∃ pre cl t y, r = .tls pre cl t y := by
  have ha := J.ack H [] (by simp)
  rw [J.relay, J.front] at ha
  have hm : b ∈ acked s.log := List.mem_flatMap.mpr ⟨_, hb, by simp⟩
  have hs := shape_of hg h1 h2 h
  cases hs with
  | boot => exact absurd (ha.subset hm) (by simp [Run.log, wroteOf])
  | clear fd s' why hd hp hc hw =>
    have : wroteOf .ack (Run.clear (E := E) fd.out s' why).log = [] :=
      Clear.c43_no_ack m1 m2 N C K h1 h2 evs1 s' why hc hw
    rw [this] at ha
    exact absurd (ha.subset hm) (by simp)
  | direct fd t y hd => cases hd
  | switched fd s' t y hd hp hc ht =>
    have : wroteOf .ack (Run.tls fd.out s'.w.log t y).log = [0] := relay_one_ack hg h1 h2 h
    rw [this] at ha
    have e : acked s.log = [0] := by
      obtain ⟨z, hz⟩ := ha
      cases hk : acked s.log with
      | nil => rw [hk] at hm; simp at hm
      | cons c l => rw [hk] at hz; simp at hz; rw [hz.1, hz.2.1]
    rw [e] at hm
    exact ⟨by simpa using hm, e, _, _, _, _, rfl⟩

/-- C90: everything the front end says after it was told that the session is encrypted is
encrypted: what the client received in clear is the beginning of what the front end said
before; the TLS engine is given what follows, in order. -/
theorem c90_replies (hg : g.Sized) (h1 : m1.length = 8192) (h2 : m2.length = 8192)
    (h : session g e0 fromcert true ends m1 m2 N C K wevs evs1 evs2 = .ok (.tls pre cl t y))
    (J : Joined (cl ++ t.w.log) net s.log H) (A B : List Smtp.Act) (b : Byte) (hl : s.log = A ++ .ack b :: B) :
    ∃ unsent, said A = wroteOf .peerout cl ++ unsent ∧ Tls.gaveApp t.w.log <+: unsent ++ said B := by
  obtain ⟨r1, r2, _, q, hq, hq2⟩ := relay_switch hg h1 h2 h
  obtain ⟨p, p', e, e1, e2⟩ := front_split (J.front.trans hl)
  -- before the front end read the byte the relay had written it
  have ha := J.ack (p ++ [.inr (.ack b)]) p' (by rw [e]; simp)
  rw [ofFront_append, ofRelay_append, ofRelay_inr, acked_append] at ha
  have hne : wroteOf .ack (ofRelay p) ≠ [] := by
    intro h0
    simp only [ofRelay, List.filterMap_nil, List.append_nil] at ha h0
    rw [h0, List.prefix_nil, List.append_eq_nil_iff] at ha
    have := ha.2
    revert this
    simp [ofFront, acked]
  -- so it had finished the cleartext phase's reading
  have hp : ofRelay p ++ ofRelay (.inr (.ack b) :: p') = cl ++ t.w.log := by
    rw [← ofRelay_append, ← e, J.relay]
  have hread : readOf .childout cl <+: readOf .childout (ofRelay p) := by
    rw [hq, List.append_assoc] at hp
    rcases List.append_eq_append_iff.mp hp with ⟨z, z1, z2⟩ | ⟨z, z1, z2⟩
    · rw [z1, wroteOf_append, List.append_eq_nil_iff] at hq2
      exact absurd hq2.1 hne
    · rw [hq, z1, readOf_append, readOf_append]
      exact ⟨readOf .childout z, by simp [readOf, Act.readOn]⟩
  have hA := hread.trans (J.reply p _ e)
  rw [e1, r1] at hA
  obtain ⟨u, hu⟩ := hA
  refine ⟨u, hu.symm, ?_⟩
  have hall := J.reply H [] (by simp)
  rw [J.relay, J.front, hl, said_append, ← hu, readOf_append, r1, r2, List.append_assoc] at hall
  have hB : said (.ack b :: B) = said B := by simp [said]
  rw [hB] at hall
  exact (List.prefix_append_right_inj _).mp hall

/-- C90, the answer to STARTTLS: if the relay, when it takes the request, has taken everything
the front end said before, then all of that, the answer 220 included, reaches the
client in clear, and exactly what the front end says after it is told that the session is
encrypted is encrypted. Missing: the condition may fail, see `c90_answer_late`. -/
theorem c90_answer_partial (hg : g.Sized) (h1 : m1.length = 8192) (h2 : m2.length = 8192)
    (h : session g e0 fromcert true ends m1 m2 N C K wevs evs1 evs2 = .ok (.tls pre cl t y))
    (hf : Smtp.Ran cfg net cin tls0 acks gin wr gwr x s)
    (J : Joined (cl ++ t.w.log) net s.log H) (A B : List Smtp.Act) (b : Byte) (hl : s.log = A ++ .ack b :: B)
    (hr : ∀ p q, H = p ++ .inl (.read .ctl [0]) :: q → readOf .childout (ofRelay p) = said (ofFront p)) :
    wroteOf .peerout cl = said A ∧ Tls.gaveApp t.w.log <+: said B := by
  have key : wroteOf .peerout cl = said A := by
    obtain ⟨r1, _, _, q, hq, hq2⟩ := relay_switch hg h1 h2 h
    have hlog : cl ++ t.w.log = q ++ .read .ctl [0] :: ([.close .ctl, .write .ack [0], .close .ack] ++ t.w.log) := by
      rw [hq]; simp
    obtain ⟨p, p', e, e1, e2⟩ := relay_split (J.relay.trans hlog)
    have hsaid := hr p p' e
    rw [e1] at hsaid
    have hcl : readOf .childout cl = readOf .childout q := by
      rw [hq, readOf_append]; simp [readOf, Act.readOn]
    rw [← r1, hcl, hsaid]
    -- the request was made before
    have hask := J.request (p ++ [.inl (.read .ctl [0])]) p' (by rw [e]; simp)
    have hne : asked (ofFront p) ≠ [] := by
      intro h0
      have hfp : ofFront (p ++ [.inl (.read .ctl [0])]) = ofFront p := by rw [ofFront_append]; simp [ofFront]
      rw [hfp, h0, List.prefix_nil, ofRelay_append, readOf_append, List.append_eq_nil_iff] at hask
      have := hask.2
      revert this
      decide
    obtain ⟨d, hd⟩ := mem_asked hne
    obtain ⟨u, v, hu⟩ := List.append_of_mem hd
    -- and not acknowledged yet
    have hack : acked (ofFront p) = [] := by
      have := J.ack p _ e
      rw [e1, hq2] at this
      exact List.prefix_nil.mp this
    have htold := (c90_told hg h1 h2 h J (b := b) (by rw [hl]; simp)).2.1
    have hA0 : acked A = [] := by
      have hb : acked (.ack b :: B) = b :: acked B := by simp [acked]
      rw [hl, acked_append, hb] at htold
      cases hA : acked A with
      | nil => rfl
      | cons c l => rw [hA] at htold; simp at htold
    have hcut : A ++ .ack b :: B = ofFront p ++ ofFront p' := by
      rw [← hl, ← J.front, e, ofFront_append, ofFront_inl]
    have noack : ∀ {l : List Smtp.Act}, acked l = [] → ∀ c, .ack c ∉ l := by
      intro l h0 c hm
      have : c ∈ acked l := List.mem_flatMap.mpr ⟨_, hm, by simp⟩
      rw [h0] at this
      cases this
    rcases List.append_eq_append_iff.mp hcut with ⟨w, hw, hw2⟩ | ⟨w, hw, hw2⟩
    · cases w with
      | nil => rw [hw]; simp
      | cons c w =>
        simp only [List.cons_append, List.cons.injEq] at hw2
        exact absurd (by rw [hw, ← hw2.1]; simp) (noack hack b)
    · rw [hw, said_append]
      have hpost := (Smtp.c52_order hf u (v ++ (w ++ .ack b :: B)) d (by rw [hl, hw, hu]; simp)).2.2
      have hvw : ∀ c, .ack c ∉ v ++ w := by
        intro c hm
        refine noack hA0 c ?_
        rw [hw, hu]
        rcases List.mem_append.mp hm with hm | hm <;> simp [hm]
      have hw0 : said w = [] := by
        rcases hpost with h0 | ⟨n, p1, h0, h3⟩
        · simp at h0
        rw [← List.append_assoc] at h0
        generalize hvw' : v ++ w = vw at h0 hvw
        cases vw with
        | nil => simp at h0
        | cons c vw =>
          simp only [List.cons_append, List.cons.injEq] at h0
          obtain ⟨rfl, rfl⟩ := h0
          cases vw with
          | nil =>
            cases v with
            | nil => simp only [List.nil_append] at hvw'; rw [hvw']; rfl
            | cons c v => simp only [List.cons_append, List.cons.injEq, List.append_eq_nil_iff] at hvw'; rw [hvw'.2.2]; rfl
          | cons c vw =>
            rcases h3 with h3 | ⟨b', p2, h3, _⟩
            · simp at h3
            · simp only [List.cons_append, List.cons.injEq] at h3
              exact absurd (by rw [h3.1]; simp) (hvw b')
      rw [hw0, List.append_nil]
  refine ⟨key, ?_⟩
  obtain ⟨u, hu, hb⟩ := c90_replies hg h1 h2 h J A B b hl
  rw [← key] at hu
  have : u = [] := by simpa using hu
  rw [this] at hb
  exact hb

/-- C90: the commands the front end obeys after STARTTLS are bytes the relay wrote to it
after the request: nothing that reached the front end earlier is obeyed later. -/
theorem c90_commands (hf : Smtp.Ran cfg net cin tls0 acks gin wr gwr x s) {log : List (Act Fd)}
    (J : Joined log net s.log H) (A B : List Smtp.Act) (d : Bytes) (n : Nat)
    (hl : s.log = A ++ .ctl d :: .discard n :: B) :
    ∃ p r, H = p ++ r ∧ ofFront p = A ++ [.ctl d] ∧ lines B <+: wroteOf .childin (ofRelay r) := by
  have e0 : A ++ .ctl d :: .discard n :: B = (A ++ [.ctl d]) ++ .discard n :: B := by simp
  obtain ⟨p, q, e, e1, e2⟩ := front_split (J.front.trans (hl.trans e0))
  obtain ⟨p1, p2, rfl, hp2, hlen⟩ := J.empty p n q e
  obtain ⟨t, _, hn, hsuf, hno, rest, hT⟩ := Smtp.c52_discarded_partial hf A B d n hl
  rw [ofFront_append, hp2, List.append_nil] at e1
  refine ⟨p1, p2 ++ .inr (.discard n) :: q, by rw [e]; simp, e1, ?_⟩
  have hw : wroteOf .childin log = wroteOf .childin (ofRelay p1) ++
      wroteOf .childin (ofRelay (p2 ++ .inr (.discard n) :: q)) := by
    rw [← wroteOf_append, ← ofRelay_append, ← List.append_assoc, ← e, J.relay]
  obtain ⟨z, hz⟩ := hsuf
  rw [J.input, hw] at hz
  have hl2 := congrArg List.length hw
  rw [List.length_append] at hl2
  have : Smtp.evStream t = wroteOf .childin (ofRelay (p2 ++ .inr (.discard n) :: q)) :=
    (List.append_inj' hz (by omega)).2
  rw [← this, taken_lines hT hno]
  exact List.prefix_append _ _

/-- C90: if the relay has written all the cleartext it ever wrote to the front end when the
front end makes its request, then every command the front end obeys after STARTTLS was
encrypted. Missing: the condition may fail, see `c90_race`; and encrypted commands may be
lost, see `c90_lost`. -/
theorem c90_encrypted_partial (hg : g.Sized) (h1 : m1.length = 8192) (h2 : m2.length = 8192)
    (h : session g e0 fromcert true ends m1 m2 N C K wevs evs1 evs2 = .ok (.tls pre cl t y))
    (hf : Smtp.Ran cfg net cin tls0 acks gin wr gwr x s)
    (J : Joined (cl ++ t.w.log) net s.log H) (A B : List Smtp.Act) (d : Bytes) (n : Nat)
    (hl : s.log = A ++ .ctl d :: .discard n :: B)
    (hc : ∀ p q, H = p ++ q → Smtp.Act.ctl d ∈ ofFront p → wroteOf .childin cl <+: wroteOf .childin (ofRelay p)) :
    ∃ lost rest, Tls.tookApp t.w.log = lost ++ (lines B ++ rest) := by
  obtain ⟨_, _, r3, _⟩ := relay_switch hg h1 h2 h
  obtain ⟨p, r, e, e1, z, hz⟩ := c90_commands hf J A B d n hl
  obtain ⟨u, hu⟩ := hc p r e (by rw [e1]; simp)
  refine ⟨u, z, ?_⟩
  have hw : wroteOf .childin (ofRelay p) ++ wroteOf .childin (ofRelay r) = wroteOf .childin cl ++ wroteOf .childin t.w.log := by
    rw [← wroteOf_append, ← ofRelay_append, ← e, J.relay, wroteOf_append]
  rw [← hu, List.append_assoc] at hw
  rw [← r3, ← List.append_cancel_left hw, hz]

end
/-! ### Concrete histories -/

/-- Both processes' actions in the order a schedule gives: `(k, j)`: the relay makes `k` moves,
then the front end `j`. -/
def merge : List (Nat × Nat) → List (Act Fd) → List Smtp.Act → List Move
  | (k, j) :: sch, l, m => (l.take k).map .inl ++ ((m.take j).map .inr ++ merge sch (l.drop k) (m.drop j))
  | [], l, m => l.map .inl ++ m.map .inr

/-- `Joined`, as a test on all ways to cut the history. -/
def joined (log : List (Act Fd)) (net : List Smtp.Ev) (flog : List Smtp.Act) (H : List Move) : Bool :=
  decide (ofRelay H = log) && decide (ofFront H = flog) && decide (Smtp.evStream net = wroteOf .childin log) &&
  (List.range (H.length + 1)).all (fun k =>
    (readOf .childout (ofRelay (H.take k))).isPrefixOf (said (ofFront (H.take k))) &&
    (readOf .ctl (ofRelay (H.take k))).isPrefixOf (asked (ofFront (H.take k))) &&
    (acked (ofFront (H.take k))).isPrefixOf (wroteOf .ack (ofRelay (H.take k))) &&
    decide ((wroteOf .childin log).length ≤ (wroteOf .childin (ofRelay (H.take k))).length +
      toCome (wroteOf .childin log).length (ofFront (H.take k))) &&
    match H.drop k with
    | .inr (.discard n) :: _ => (List.range (k + 1)).any fun i =>
        decide (ofFront ((H.take k).drop i) = []) &&
        decide ((wroteOf .childin (ofRelay ((H.take k).take i))).length + n = (wroteOf .childin log).length)
    | _ => true)

theorem joined_sound {log : List (Act Fd)} {net : List Smtp.Ev} {flog : List Smtp.Act} {H : List Move}
    (h : joined log net flog H = true) : Joined log net flog H := by
  simp only [joined, Bool.and_eq_true, decide_eq_true_eq, List.all_eq_true] at h
  obtain ⟨⟨⟨h1, h2⟩, h3⟩, h4⟩ := h
  have hk : ∀ p q, H = p ++ q → H.take p.length = p ∧ H.drop p.length = q ∧ p.length ∈ List.range (H.length + 1) := by
    rintro p q rfl
    refine ⟨by simp, by simp, ?_⟩
    rw [List.mem_range, List.length_append]; omega
  refine ⟨h1, h2, h3, ?_, ?_, ?_, ?_, ?_⟩
  · intro p q e
    obtain ⟨e1, e2, hm⟩ := hk p q e
    have := (h4 _ hm).1.1.1.1
    rw [e1] at this
    exact List.isPrefixOf_iff_prefix.mp this
  · intro p q e
    obtain ⟨e1, e2, hm⟩ := hk p q e
    have := (h4 _ hm).1.1.1.2
    rw [e1] at this
    exact List.isPrefixOf_iff_prefix.mp this
  · intro p q e
    obtain ⟨e1, e2, hm⟩ := hk p q e
    have := (h4 _ hm).1.1.2
    rw [e1] at this
    exact List.isPrefixOf_iff_prefix.mp this
  · intro p q e
    obtain ⟨e1, e2, hm⟩ := hk p q e
    have := (h4 _ hm).1.2
    rw [e1] at this
    exact this
  · intro p n q e
    obtain ⟨e1, e2, hm⟩ := hk p _ e
    have := (h4 _ hm).2
    rw [e1, e2] at this
    simp only [List.any_eq_true, Bool.and_eq_true, decide_eq_true_eq] at this
    obtain ⟨i, _, h5, h6⟩ := this
    exact ⟨p.take i, p.drop i, (List.take_append_drop i p).symm, h5, h6⟩

/-- The session of the relay in the histories below: the client sends STARTTLS, then QUIT. -/
def demoRelay (evs1 : List Clear.Ev) (evs2 : List Tls.Ev) : Out (Run Tls.Toy) :=
  session (Tls.toy false) ⟨[], 0, [], false⟩ false true Main.sampleEnds (List.replicate 8192 0) (List.replicate 8192 0)
    b!"STARTTLS\r\nQUIT\r\n" b!"220 hi\r\n220 ready to start TLS (#2.0.0)\r\n221 bye\r\n" [0] (List.replicate 40 (.data 6)) evs1 evs2

/-- The session of the front end. -/
def demoFront (net : List Smtp.Ev) : Smtp.R Unit :=
  Smtp.session ⟨none, false, false, []⟩ (Smtp.start net b!"220 hi\r\n250 reset\r\n221 bye\r\n" true [0] [] [] [])

/-- Both together. -/
def demoCheck (evs1 : List Clear.Ev) (evs2 : List Tls.Ev) (net : List Smtp.Ev) (sch : List (Nat × Nat))
    (P : List (Act Fd) → Tls.St Tls.Toy → Smtp.S → List Move → Bool) : Bool :=
  match demoRelay evs1 evs2, demoFront net with
  | .ok (.tls _ cl t _), .die _ s => joined (cl ++ t.w.log) net s.log (merge sch (cl ++ t.w.log) s.log) &&
      P cl t s (merge sch (cl ++ t.w.log) s.log)
  | _, _ => false

theorem demo_sound {evs1 : List Clear.Ev} {evs2 : List Tls.Ev} {net : List Smtp.Ev} {sch : List (Nat × Nat)}
    {P : List (Act Fd) → Tls.St Tls.Toy → Smtp.S → List Move → Bool} (h : demoCheck evs1 evs2 net sch P = true) :
    ∃ pre cl t y x s H, demoRelay evs1 evs2 = .ok (.tls pre cl t y) ∧
      Smtp.Ran ⟨none, false, false, []⟩ net b!"220 hi\r\n250 reset\r\n221 bye\r\n" true [0] [] [] [] x s ∧
      Joined (cl ++ t.w.log) net s.log H ∧ P cl t s H = true := by
  unfold demoCheck at h
  split at h
  · rename_i pre cl t y x s e1 e2
    rw [Bool.and_eq_true] at h
    exact ⟨pre, cl, t, y, x, s, _, e1, e2, joined_sound h.1, h.2⟩
  · cases h

/-- An iteration of the cleartext phase with one descriptor ready. -/
def step1 (r : Clear.Ready) (n : Nat) : Clear.Ev := ⟨some r, .data n, .data n, [.data 0], .again⟩
def toPeer := step1 ⟨true, false, false, false, false, false⟩ 99
def toChild := step1 ⟨false, true, false, false, false, false⟩ 99
def fromPeer (n : Nat) := step1 ⟨false, false, true, false, false, false⟩ n
def fromChild (n : Nat) := step1 ⟨false, false, false, true, false, false⟩ n
def fromCtl := step1 ⟨false, false, false, false, true, false⟩ 0

/-- And of the encrypted phase. -/
def encOut := Tls.demoEv ⟨true, false, false, false, false⟩ 9
def encIn := Tls.demoEv ⟨false, true, false, false, false⟩ 9
def decOut := Tls.demoEv ⟨false, false, true, false, false⟩ 9
def decIn := Tls.demoEv ⟨false, false, false, true, false⟩ 9

/-- The encrypted phase passes on the command QUIT, -/
def quitEvs : List Tls.Ev := [encIn, decOut, encIn, decOut]
/-- and its answer. -/
def byeEvs : List Tls.Ev := [decIn, encOut, decIn, encOut, decIn, encOut]

/-- The usual course of the cleartext phase. -/
def usualEvs : List Clear.Ev := [fromChild 7, toPeer, fromPeer 9, toChild, fromChild 32, toPeer, fromCtl]

/-- A test of all ways to cut a list in two. -/
def everyCut {α : Type} (H : List α) (f : List α → List α → Bool) : Bool :=
  (List.range (H.length + 1)).all fun k => f (H.take k) (H.drop k)

theorem everyCut_sound {α : Type} {H : List α} {f : List α → List α → Bool} (h : everyCut H f = true) (p q : List α)
    (e : H = p ++ q) : f p q = true := by
  subst e
  have := List.all_eq_true.mp h p.length (by rw [List.mem_range, List.length_append]; omega)
  simpa using this

/-- STARTTLS as it should be. The hypotheses of `c90_request`, `c90_told`, `c90_replies`,
`c90_answer_partial`, `c90_commands` and `c90_encrypted_partial` hold; the answer is sent in clear,
QUIT is decrypted and obeyed, its answer is encrypted. -/
example : ∃ pre cl t y x s H, demoRelay usualEvs (quitEvs ++ byeEvs) = .ok (.tls pre cl t y) ∧
    Smtp.Ran ⟨none, false, false, []⟩ [.data b!"STARTTLS\r\n", .gap, .data b!"QUIT\r\n"]
      b!"220 hi\r\n250 reset\r\n221 bye\r\n" true [0] [] [] [] x s ∧
    Joined (cl ++ t.w.log) [.data b!"STARTTLS\r\n", .gap, .data b!"QUIT\r\n"] s.log H ∧
    (∃ A B, s.log = A ++ .ctl [0] :: .discard 6 :: .ack 0 :: B ∧ lines B = b!"QUIT\r\n" ∧
      wroteOf .peerout cl = b!"220 hi\r\n220 ready to start TLS (#2.0.0)\r\n" ∧ Tls.tookApp t.w.log = b!"QUIT\r\n" ∧
      Tls.gaveApp t.w.log = b!"221 bye\r\n") ∧
    (∀ p q, H = p ++ .inl (.read .ctl [0]) :: q → readOf .childout (ofRelay p) = said (ofFront p)) ∧
    ∀ p q, H = p ++ q → Smtp.Act.ctl [0] ∈ ofFront p → wroteOf .childin cl <+: wroteOf .childin (ofRelay p) := by
  obtain ⟨pre, cl, t, y, x, s, H, h1, h2, h3, h4⟩ := demo_sound (evs1 := usualEvs) (evs2 := quitEvs ++ byeEvs)
    (net := [.data b!"STARTTLS\r\n", .gap, .data b!"QUIT\r\n"]) (sch := [(0, 2), (6, 4), (7, 3), (18, 4)])
    (P := fun cl t s H =>
      decide (s.log.drop 4 = .ctl [0] :: .discard 6 :: .ack 0 :: s.log.drop 7 ∧ lines (s.log.drop 7) = b!"QUIT\r\n" ∧
        wroteOf .peerout cl = b!"220 hi\r\n220 ready to start TLS (#2.0.0)\r\n" ∧ Tls.tookApp t.w.log = b!"QUIT\r\n" ∧
        Tls.gaveApp t.w.log = b!"221 bye\r\n") &&
      everyCut H (fun p q => match q with
        | .inl (.read .ctl [0]) :: _ => decide (readOf .childout (ofRelay p) = said (ofFront p))
        | _ => true) &&
      everyCut H (fun p _ => !decide (Smtp.Act.ctl [0] ∈ ofFront p) ||
        (wroteOf .childin cl).isPrefixOf (wroteOf .childin (ofRelay p)))) (by decide +kernel)
  simp only [Bool.and_eq_true, decide_eq_true_eq] at h4
  refine ⟨pre, cl, t, y, x, s, H, h1, h2, h3, ⟨s.log.take 4, s.log.drop 7, ?_, h4.1.1.2⟩, ?_, ?_⟩
  · rw [← h4.1.1.1, List.take_append_drop]
  · intro p q e
    simpa using everyCut_sound h4.1.2 p _ e
  · intro p q e hm
    have := everyCut_sound h4.2 p q e
    simp only [hm, decide_true, Bool.not_true, Bool.false_or] at this
    exact List.isPrefixOf_iff_prefix.mp this

/-- C90 is violated in a race: the client sends STARTTLS and QUIT in clear, nothing was ever
decrypted, and the front end obeys QUIT after it was told that the session is encrypted.
The relay wrote QUIT to the front end after the front end had thrown away its input and
before the relay looked at the request. -/
theorem c90_race : ∃ evs1 net pre cl t y x s H, demoRelay evs1 [] = .ok (.tls pre cl t y) ∧
    Smtp.Ran ⟨none, false, false, []⟩ net b!"220 hi\r\n250 reset\r\n221 bye\r\n" true [0] [] [] [] x s ∧
    Joined (cl ++ t.w.log) net s.log H ∧
    ∃ A B, s.log = A ++ .ack 0 :: B ∧ .line b!"QUIT\r" ∈ B ∧ .child b!"QUIT\r\n" ∈ B ∧ Tls.tookApp t.w.log = [] := by
  obtain ⟨pre, cl, t, y, x, s, H, h1, h2, h3, h4⟩ := demo_sound
    (evs1 := [fromChild 7, toPeer, fromPeer 9, toChild, fromPeer 5, toChild, fromChild 32, toPeer, fromCtl]) (evs2 := [])
    (net := [.data b!"STARTTLS\r\n", .gap, .data b!"QUIT\r\n"]) (sch := [(0, 2), (8, 4), (8, 7)])
    (P := fun _ t s _ => decide (s.log.drop 6 = .ack 0 :: s.log.drop 7 ∧ .line b!"QUIT\r" ∈ s.log.drop 7 ∧
      .child b!"QUIT\r\n" ∈ s.log.drop 7 ∧ Tls.tookApp t.w.log = [])) (by decide +kernel)
  rw [decide_eq_true_eq] at h4
  exact ⟨_, _, pre, cl, t, y, x, s, H, h1, h2, h3, s.log.take 6, s.log.drop 7, by rw [← h4.1, List.take_append_drop], h4.2⟩

/-- C90 is violated in another race: an encrypted command is lost. The relay takes the request
and acknowledges it, and passes on the first decrypted command, all before the front end
throws away its input. QUIT was decrypted and is never obeyed. -/
theorem c90_lost : ∃ net pre cl t y x s H, demoRelay usualEvs quitEvs = .ok (.tls pre cl t y) ∧
    Smtp.Ran ⟨none, false, false, []⟩ net b!"220 hi\r\n250 reset\r\n221 bye\r\n" true [0] [] [] [] x s ∧
    Joined (cl ++ t.w.log) net s.log H ∧
    Tls.tookApp t.w.log = b!"QUIT\r\n" ∧ acked s.log = [0] ∧ lines s.log = b!"STARTTLS\r\n" := by
  obtain ⟨pre, cl, t, y, x, s, H, h1, h2, h3, h4⟩ := demo_sound (evs1 := usualEvs) (evs2 := quitEvs)
    (net := [.data b!"STARTTLS\r\n", .data b!"QUIT\r\n", .gap]) (sch := [(0, 2), (6, 3), (99, 7)])
    (P := fun _ t s _ => decide (Tls.tookApp t.w.log = b!"QUIT\r\n" ∧ acked s.log = [0] ∧
      lines s.log = b!"STARTTLS\r\n")) (by decide +kernel)
  rw [decide_eq_true_eq] at h4
  exact ⟨_, pre, cl, t, y, x, s, H, h1, h2, h3, h4⟩

/-- C90 is violated in a third race: the answer to STARTTLS is not sent in clear but given to the
TLS engine. The relay's poll looked at the front end's output before the front end
answered, and at the control pipe after it made its request; so the relay takes the request
with the answer unread. -/
theorem c90_answer_late : ∃ evs1 net pre cl t y x s H, demoRelay evs1 [decIn] = .ok (.tls pre cl t y) ∧
    Smtp.Ran ⟨none, false, false, []⟩ net b!"220 hi\r\n250 reset\r\n221 bye\r\n" true [0] [] [] [] x s ∧
    Joined (cl ++ t.w.log) net s.log H ∧
    (∃ A B, s.log = A ++ .client b!"220 ready to start TLS (#2.0.0)\r\n" :: .ctl [0] :: B ∧ acked B = [0]) ∧
    wroteOf .peerout cl = b!"220 hi\r\n" ∧ Tls.gaveApp t.w.log = b!"220 " := by
  obtain ⟨pre, cl, t, y, x, s, H, h1, h2, h3, h4⟩ := demo_sound
    (evs1 := [fromChild 7, toPeer, fromPeer 9, toChild, fromCtl]) (evs2 := [decIn])
    (net := [.data b!"STARTTLS\r\n", .gap]) (sch := [(0, 2), (6, 4), (99, 9)])
    (P := fun cl t s _ => decide (s.log.drop 3 = .client b!"220 ready to start TLS (#2.0.0)\r\n" :: .ctl [0] :: s.log.drop 5 ∧
      acked (s.log.drop 5) = [0] ∧ wroteOf .peerout cl = b!"220 hi\r\n" ∧ Tls.gaveApp t.w.log = b!"220 ")) (by decide +kernel)
  rw [decide_eq_true_eq] at h4
  exact ⟨_, _, pre, cl, t, y, x, s, H, h1, h2, h3, ⟨s.log.take 3, s.log.drop 5, by rw [← h4.1, List.take_append_drop], h4.2.1⟩,
    h4.2.2⟩

end Session.Joint
