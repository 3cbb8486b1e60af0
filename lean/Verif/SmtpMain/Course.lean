import Verif.SmtpMain.Spec
import Verif.Tcp.Lemmas
import Verif.Cmd.Props
import Verif.ConnInfo.Props
import Verif.Main.StartProps
import Verif.Smtp.Props
/-
The possible courses of a run of tlswrapper-smtp on a good command line.
-/
namespace SmtpMain
open Conf.Spec (Opt last)
open Conf.Spec (switch)

/-! ### The parts -/

/-- The address of the greylist server: none, or one of the resolver's answer. -/
theorem lookup_ok {w : World} (hw : Sound w) (host : Bytes) (hn : NoNul host) (hl : host.length ≤ 255) :
    ∃ r ip, lookup w (host ++ List.replicate (256 - host.length) 0) = .ok (r, ip) ∧
      (r ≤ 0 ∧ (w.lost = false ∨ w.nojail = true → ∀ as, w.gai host = .list as → Resolve.wanted as 8 = []) ∨
       r = 16 ∧ ip.length = 16 ∧ Address w host ip) := by
  have hc : host ++ List.replicate (256 - host.length) 0 = cstr host (List.replicate (255 - host.length) 0) := by
    unfold cstr
    rw [show 256 - host.length = (255 - host.length) + 1 by omega, List.replicate_succ]
  have w1 : ∀ as : List Resolve.Answer, ∀ m, 1 ≤ m → m ≤ 8 → (Resolve.wanted as m = [] → Resolve.wanted as 8 = []) ∧
      (∀ b ∈ Resolve.wanted as m, b ∈ Resolve.wanted as 8) := by
    intro as m h1 h8
    unfold Resolve.wanted
    refine ⟨fun h => ?_, fun b hb => ?_⟩
    · cases hf : as.filterMap Resolve.Answer.addr with
      | nil => simp
      | cons x xs =>
        rw [hf, List.take_eq_nil_iff] at h
        simp at h
        omega
    · rw [show m = min m 8 by omega, ← List.take_take] at hb
      exact List.mem_of_mem_take hb
  unfold lookup
  rw [hc]
  by_cases hj : w.nojail = true
  · rw [if_pos hj, cstrOf_cstr _ _ hn]
    simp only [Out.ok_bind]
    cases hg : w.gai host with
    | fail nd =>
      obtain ⟨r, e, h, -⟩ := Resolve.c34_failure (List.replicate 16 0) 16 (.fail nd) w.rnd (.inr ⟨nd, rfl⟩)
      exact ⟨r, _, e, .inl ⟨by omega, by simp⟩⟩
    | list as =>
      obtain ⟨bs, ip', e, p, l, t, -⟩ := Resolve.c34_resolve (List.replicate 16 0) as (hw.gai host as hg) (by simp) (by simp) w.rnd
      simp only [List.length_replicate] at e p l
      refine ⟨_, _, e, ?_⟩
      have hB := TcpMain.blocks_wanted (hw.gai host as hg) p
      cases bs with
      | nil =>
        refine .inl ⟨by simp, fun _ as' h => ?_⟩
        cases h
        exact (w1 as (16 / 16) (by decide) (by decide)).1 p.symm.eq_nil
      | cons b bs =>
        have h1 : (b :: bs).length ≤ 1 := by rw [p.length_eq]; simp only [Resolve.wanted, List.length_take]; omega
        have h0 : bs = [] := by cases bs with | nil => rfl | cons => simp at h1
        subst h0
        have hb : b.length = 16 := hB b (by simp)
        refine .inr ⟨by simp, l, as, hg, ?_⟩
        have : ip' = b := by
          rw [List.take_of_length_le (by simp [l])] at t
          simpa using t
        rw [this]
        exact (w1 as (16 / 16) (by decide) (by decide)).2 b (p.mem_iff.1 (by simp))
  · rw [if_neg hj]
    by_cases ho : w.lost = true
    · refine ⟨-1, List.replicate 16 0, ?_, .inl ⟨by omega, by simp [ho, hj]⟩⟩
      unfold Resolve.resolvehostDo
      rw [if_neg (by omega), Resolve.c34_request host _ hn, if_neg (by omega)]
      simp [ho, Resolve.answer]
    · simp only [ho, Bool.false_eq_true, if_false]
      cases hg : w.gai host with
      | fail nd =>
        have e := Resolve.c34_end_to_end_failure (List.replicate 16 0) host (List.replicate (255 - host.length) 0) w.buf0 w.ip0 hn (by omega) hw.buf0 w.gai nd hg w.rnd (by simp)
        simp only [List.length_replicate] at e
        exact ⟨_, _, e, .inl ⟨by split <;> omega, by simp⟩⟩
      | list as =>
        obtain ⟨bs, ip', e, p, -, l, t⟩ := Resolve.c34_end_to_end (List.replicate 16 0) host (List.replicate (255 - host.length) 0) w.buf0 w.ip0 hn (by omega) hw.buf0 hw.ip0
          w.gai as hg (hw.gai host as hg) w.rnd (by simp)
        simp only [List.length_replicate] at e l t
        have hB := TcpMain.blocks_wanted (hw.gai host as hg) p
        refine ⟨_, _, e, ?_⟩
        cases bs with
        | nil =>
          refine .inl ⟨by simp, fun _ as' h => ?_⟩
          cases h
          exact p.symm.eq_nil
        | cons b bs =>
          have hb : b.length = 16 := hB b (by simp)
          rw [Nat.min_eq_right (by simp; omega)] at t ⊢
          refine .inr ⟨rfl, l, as, hg, ?_⟩
          have : ip' = b := by
            rw [List.take_of_length_le (by omega), List.flatten_cons, List.take_append_of_le_length (by omega),
              List.take_of_length_le (by omega)] at t
            exact t
          rw [this]
          exact p.mem_iff.1 (by simp)

/-- The code die() ends with after QUIT. -/
theorem exit_ok {w : World} (hw : Sound w) : ∃ x, Waited w x ∧
    Main.smtpDie true 0 0 w.wait = (match x with | none => none | some none => some 0 | some (some d) => some d.owed) := by
  have h0 : Main.smtpDie true 0 0 w.wait = (match Main.waitLoop w.wait with
      | none => none
      | some a => let status := match a with | .reaped s => s | _ => 0
                  if Main.WIFEXITED status then some (Main.WEXITSTATUS status) else some 111) := rfl
  rw [h0]
  have : ∀ l : List Main.Ans, (Main.waitLoop l = none ∧ ∀ a ∈ l, a = .eintr) ∨
      ∃ m a t, l = List.replicate m .eintr ++ a :: t ∧ a ≠ .eintr ∧ Main.waitLoop l = some a := by
    intro l
    induction l with
    | nil => exact .inl ⟨rfl, by simp⟩
    | cons a l ih =>
      cases a with
      | eintr =>
        rcases ih with ⟨h1, h2⟩ | ⟨m, a, t, rfl, h2, h3⟩
        · exact .inl ⟨h1, by simpa using h2⟩
        · exact .inr ⟨m + 1, a, t, by simp [List.replicate_succ], h2, h3⟩
      | failed => exact .inr ⟨0, _, l, rfl, nofun, rfl⟩
      | reaped s => exact .inr ⟨0, _, l, rfl, nofun, rfl⟩
  rcases this w.wait with ⟨h1, h2⟩ | ⟨m, a, t, h1, h2, h3⟩
  · exact ⟨none, .still h2, by rw [h1]⟩
  · cases a with
    | eintr => exact absurd rfl h2
    | failed => exact ⟨some none, .lost m t h1, by rw [h3]; rfl⟩
    | reaped s =>
      obtain ⟨d, hd⟩ := hw.wait s (by rw [h1]; simp)
      refine ⟨some (some d), .ended m s t d h1 hd, ?_⟩
      rw [h3]
      simp only
      cases hd with
      | exited c hc =>
        have h1 : c * 256 % 128 = 0 := by omega
        have h2 : c * 256 / 256 % 256 = c := by omega
        simp [Main.WIFEXITED, Main.WEXITSTATUS, Death.owed, h1, h2, hc]
      | killed s h1 h2 =>
        have : ¬ s % 128 = 0 := by omega
        simp [Main.WIFEXITED, Death.owed, this]
      | core s h1 h2 =>
        have : ¬ s % 128 = 0 := by omega
        simp [Main.WIFEXITED, Death.owed, this]

/-! ### QUIT -/

/-- After these actions a session is over exactly if they end with an answered QUIT. -/
theorem quit_iff {cfg : Smtp.Cfg} {tls0 : Bool} {l : List Smtp.Act} {p : Smtp.Spec.Phase} (h : Smtp.Spec.Trace cfg tls0 .start l p) :
    Quit l ↔ p = .over := by
  open Smtp Smtp.Spec in
  constructor
  · rintro ⟨pre, raw, r, d, rfl, hq⟩
    obtain ⟨q1, q2, -, s1, h⟩ := Smtp.Trace.split (l1 := pre) h
    obtain ⟨q3, s2, h⟩ := Smtp.Trace.head h
    obtain ⟨q4, s3, h⟩ := Smtp.Trace.head h
    obtain ⟨q5, s4, h⟩ := Smtp.Trace.head h
    rcases Smtp.Trace.last h with ⟨-, rfl⟩ | ⟨l', a, q, e, -⟩
    · have hb : content raw = b!"." → False := by
        intro hc
        have : verb raw = .default := by
          unfold verb word forward
          rw [hc]
          decide
        rw [hq] at this
        cases this
      have hf : ∀ c, q2 = .bodyLine c raw → q3 = .body c := by
        rintro c rfl
        generalize Act.child (forward raw) = x at s2
        cases s2 with
        | bodyForward => rfl
        | bodyDot _ _ hd => exact absurd hd hb
      cases s1 with
      | line c _ _ _ =>
        cases s2 with
        | forward =>
          cases s3
          cases s4 <;> simp_all
        | unasked =>
          cases s3
          cases s4 <;> simp_all
      | bodyLine c _ _ _ =>
        obtain rfl := hf c rfl
        cases s3
    · simp at e
  · rintro rfl
    have ng : ∀ c raw, verb raw = .quit → ¬ Greylisted cfg c raw := by
      intro c raw hq hg
      simp [Greylisted, hq] at hg
    have na : ∀ c raw l, verb raw = .quit → ¬ Spec.Trace cfg tls0 .start l (.asked c raw) := by
      intro c raw l hq h
      rcases Smtp.Trace.last h with ⟨-, e⟩ | ⟨_, a, q, rfl, -, hs⟩
      · cases e
      · cases hs with | ask _ _ _ _ hg => exact ng _ _ hq hg
    have nb : ∀ c raw b l, verb raw = .quit → ¬ Spec.Trace cfg tls0 .start l (.answered c raw b) := by
      intro c raw b l hq h
      rcases Smtp.Trace.last h with ⟨-, e⟩ | ⟨_, a, q, rfl, h', hs⟩
      · cases e
      · cases hs; exact na _ _ _ hq h'
    rcases Smtp.Trace.last h with ⟨-, e⟩ | ⟨l1, a, q, rfl, h1, hs⟩
    · cases e
    cases hs with
    | quit c raw r hq =>
      rcases Smtp.Trace.last h1 with ⟨-, e⟩ | ⟨l2, a, q, rfl, h2, hs⟩
      · cases e
      cases hs
      rcases Smtp.Trace.last h2 with ⟨-, e⟩ | ⟨l3, a, q, rfl, h3, hs⟩
      · cases e
      cases hs with
      | forward =>
        obtain ⟨l', rfl, -⟩ := Smtp.Trace.got h3
        exact ⟨l', raw, r, _, by simp only [List.append_assoc, List.cons_append, List.nil_append]; rfl, hq⟩
      | unasked _ _ hg => exact absurd hg (ng _ _ hq)
      | unanswered => exact absurd h3 (na _ _ _ hq)
      | pass => exact absurd h3 (nb _ _ _ _ hq)
      | overlong => exact absurd h3 (nb _ _ _ _ hq)

/-- A session: the front end between this client and the mail program; `grey` and `closed` say whether a greylist
server is connected and whether it must be. -/
structure Served (w : World) (grey closed : Bool) (as : List Smtp.Act) (code : Option Nat) : Prop where
  ran : ∃ e x s, Client w e ∧ Smtp.Ran ⟨w.id, grey, closed, text w.codec e.remoteip⟩ w.net w.cin w.ctl w.acks w.gin w.wr w.gwr x s ∧
    s.log = as
  stays : ¬ Quit as → code = some 111
  quits : Quit as → ∃ x, Waited w x ∧ code = (match x with | none => none | some none => some 0 | some (some d) => some d.owed)

theorem text_eq (C : Proxy.IpCodec) (ip : Bytes) : Proxy.iptostr C ip = text C ip := by
  unfold Proxy.iptostr text
  by_cases h : ip.take 12 = Proxy.v4prefix
  · rw [if_pos h, if_pos]
    exact ⟨ip.drop 12, by rw [show ([0, 0, 0, 0, 0, 0, 0, 0, 0, 0, 0xff, 0xff] : Bytes) = Proxy.v4prefix from rfl, ← h, List.take_append_drop]⟩
  · rw [if_neg h, if_neg]
    rintro ⟨t, rfl⟩
    exact h (by simp [Proxy.v4prefix])

theorem serve_ok {w : World} (hw : Sound w) (st : Cmd.SmtpStarted) (grey : Bool) (tr : List Obs) :
    ∃ as code, serve w st grey tr = .ok ⟨tr ++ as.map .session, code⟩ ∧ Served w grey st.opts.flaggreyfailclosed as code := by
  unfold serve
  obtain ⟨ok, e, h, h1, h2, -⟩ := ConnInfo.c65_get w.codec hw.apart w.env hw.strings w.loc w.peer Proxy.zeroEnds
  rw [h]
  simp only [Out.ok_bind, text_eq]
  obtain ⟨x, s, hr⟩ := Smtp.c47_ends ⟨w.id, grey, st.opts.flaggreyfailclosed, text w.codec e.remoteip⟩ w.net w.cin w.ctl w.acks w.gin w.wr w.gwr
  rw [show Smtp.session _ _ = _ from hr]
  refine ⟨s.log, _, rfl, ⟨e, x, s, ⟨fun x hx => (h1 x hx).2, fun hn x hx => (h2 hn x hx).2⟩, hr, rfl⟩, ?_, ?_⟩
  · intro hq
    obtain ⟨p, ht, ⟨rfl, -⟩ | ⟨-, hp⟩⟩ := Smtp.c47_trace hr
    · rfl
    · exact absurd ((quit_iff ht).2 hp) hq
  · intro hq
    obtain ⟨p, ht, ⟨-, hp⟩ | ⟨rfl, -⟩⟩ := Smtp.c47_trace hr
    · exact absurd ((quit_iff ht).1 hq) hp
    · exact exit_ok hw

/-- The beginning of a trace. -/
def conf (w : World) (st : Cmd.SmtpStarted) : List Obs :=
  .started st.prog st.opts.user :: if w.nojail then [] else [.jailed st.opts.jailaccount st.opts.jaildir]

inductive Course (w : World) (st : Cmd.SmtpStarted) : Res → Prop where
  /-- no pipe, no process -/
  | poor : w.pipes = false ∨ w.fork = false → Course w st ⟨[], some 111⟩
  /-- no resolver, no socket, no jail -/
  | early (code : Option Nat) : code = some 111 ∧ (w.nojail = false ∧ w.jail = false ∨ st.greylist ≠ none) ∨ code = none ∧ st.greylist ≠ none →
      Course w st ⟨[.started st.prog st.opts.user], code⟩
  /-- the greylist server has no address, or the kernel does not answer -/
  | unresolved (code : Option Nat) : st.greylist ≠ none → code = some 111 ∨ code = none → Course w st ⟨conf w st, code⟩
  /-- the greylist server is not reached, and must be -/
  | unreachable (buf host : Bytes) (port : Byte × Byte) (a : Bytes) : st.greylist = some (buf, port) →
      buf = host ++ List.replicate (256 - host.length) 0 → NoNul host → Address w host a →
      st.opts.flaggreyfailclosed = true → Course w st ⟨conf w st ++ [.connect a port], some 111⟩
  | plain (as : List Smtp.Act) (code : Option Nat) : st.greylist = none → Served w false st.opts.flaggreyfailclosed as code →
      Course w st ⟨conf w st ++ as.map .session, code⟩
  | grey (buf host : Bytes) (port : Byte × Byte) (a : Bytes) (grey : Bool) (as : List Smtp.Act) (code : Option Nat) :
      st.greylist = some (buf, port) → buf = host ++ List.replicate (256 - host.length) 0 → NoNul host → Address w host a →
      (grey = false → st.opts.flaggreyfailclosed = false) → Served w grey st.opts.flaggreyfailclosed as code →
      Course w st ⟨conf w st ++ [.connect a port] ++ as.map .session, code⟩

theorem reach_ok {w : World} (hw : Sound w) (st : Cmd.SmtpStarted) (hto : 1 ≤ st.crwtimeout) (host : Bytes) (port : Byte × Byte)
    (hn : NoNul host) (hl : host.length ≤ 255) (hg : st.greylist = some (host ++ List.replicate (256 - host.length) 0, port))
    (o : List Nat) (s : Conn.St) (hs : Conn.Ready o 1 s) (h0 : s.tried = []) (kern : List Conn.Ev) :
    ∃ res, reach w st (host ++ List.replicate (256 - host.length) 0) port s kern (conf w st) = .ok res ∧ Course w st res := by
  unfold reach
  obtain ⟨r, ip, e, h⟩ := lookup_ok hw host hn hl
  rw [e]
  simp only [Out.ok_bind]
  have hne : st.greylist ≠ none := by rw [hg]; nofun
  by_cases h1 : r < 0
  · rw [if_pos h1]; exact ⟨_, rfl, .unresolved _ hne (.inl rfl)⟩
  rw [if_neg h1]
  by_cases h2 : r = 0
  · rw [if_pos h2]; exact ⟨_, rfl, .unresolved _ hne (.inl rfl)⟩
  rw [if_neg h2]
  obtain ⟨rfl, hi, hA⟩ := h.resolve_left (by omega)
  have ha : Resolve.addrAt ip 0 = .ok ip := by
    rw [Resolve.addrAt, if_pos (by omega), List.drop_zero, List.take_of_length_le (by omega)]
  simp only [ha, Out.ok_bind, ite_self]
  cases hc : Conn.conn st.crwtimeout ip 16 s kern with
  | none => exact ⟨_, rfl, .unresolved _ hne (.inr rfl)⟩
  | some x =>
    obtain ⟨d, ev'⟩ := x
    obtain ⟨m, m1, m2, m3, -⟩ := Conn.conn_tried o st.crwtimeout ip 1 (by omega) (by decide) s hs hto h0 kern ev' d hc
    have hm : m = 1 := by omega
    subst hm
    have htr : d.st.tried.reverse.map (fun t => Obs.connect t.2 port) = [.connect ip port] := by
      have : d.st.tried.reverse.map (fun t => Obs.connect t.2 port) = (d.st.tried.reverse.map (·.2)).map (Obs.connect · port) := by simp
      rw [this, m3]
      simp only [List.range_succ, List.range_zero, List.nil_append, List.map_cons, List.map_nil, Conn.cand, Nat.mul_zero, List.drop_zero]
      rw [List.take_of_length_le (by omega)]
    simp only [htr]
    cases d.ret with
    | fail =>
      simp only
      split
      · next hf => exact ⟨_, rfl, .unreachable _ host port ip hg rfl hn hA hf⟩
      · next hf =>
        obtain ⟨as, code, es, hsv⟩ := serve_ok hw st false (conf w st ++ [.connect ip port])
        exact ⟨_, es, .grey _ host port ip false as code hg rfl hn hA (fun _ => by simpa using hf) hsv⟩
    | ok fd dup =>
      obtain ⟨as, code, es, hsv⟩ := serve_ok hw st true (conf w st ++ [.connect ip port])
      exact ⟨_, es, .grey _ host port ip true as code hg rfl hn hA nofun hsv⟩

theorem confine_ok {w : World} (st : Cmd.SmtpStarted) (k : List Obs → Out Res)
    (h : ∃ res, k (conf w st) = .ok res ∧ Course w st res) :
    ∃ res, confine w st k [.started st.prog st.opts.user] = .ok res ∧ Course w st res := by
  unfold confine
  unfold conf at h
  by_cases hj : w.nojail = true
  · rw [if_pos hj] at h ⊢; exact h
  · rw [if_neg hj] at h ⊢
    split
    · exact h
    · next hf => exact ⟨_, rfl, .early _ (.inl ⟨rfl, .inl ⟨by simpa using hj, by simpa using hf⟩⟩)⟩

theorem parts_host_noNul {ip6 : Bytes → Bool} {x h p : Bytes} (hx : NoNul x) (g : HostPort.Spec.Parts ip6 x h p) : NoNul h := by
  cases g with
  | host => exact hx
  | ip6 => exact hx
  | bracketed => exact fun b hb => hx b (by simp [hb])
  | hostPort => exact fun b hb => hx b (by simp [hb])
  | bracketedPort => exact fun b hb => hx b (by simp [hb])

theorem boot_ok {w : World} (hw : Sound w) (opts : List Opt) (emptydir : Bytes) (prog : List Bytes) (st : Cmd.SmtpStarted)
    (hk : ∀ x, last (c! 'g') opts = some x → NoNul x)
    (hst : Cmd.SmtpServes w.ip6 emptydir opts prog st) : ∃ res, boot w st = .ok res ∧ Course w st res := by
  unfold boot
  split
  · next h => exact ⟨_, rfl, .poor (.inl (by simpa using h))⟩
  · split
    · next h => exact ⟨_, rfl, .poor (.inr (by simpa using h))⟩
    · cases hl : last (c! 'g') opts with
      | none =>
        have hg := hst.noGreylist hl
        simp only [hg]
        obtain ⟨as, code, es, hsv⟩ := serve_ok hw st false (conf w st)
        exact confine_ok st _ ⟨_, es, .plain as code hg hsv⟩
      | some x =>
        obtain ⟨host, port, hi, lo, hp, h255, -, hg⟩ := hst.greylist x hl
        have hn := parts_host_noNul (hk x hl) hp
        have hne : st.greylist ≠ none := by rw [hg]; nofun
        simp only [hg]
        split
        · exact ⟨_, rfl, .early _ (.inl ⟨rfl, .inr hne⟩)⟩
        · rcases hi : Conn.init 1 ⟨fun _ => none, fun _ => none, w.fds, [], []⟩ w.kern with _ | ⟨b, s, kern⟩
          · exact ⟨_, rfl, .early _ (.inr ⟨rfl, hne⟩)⟩
          · cases b with
            | false => exact ⟨_, rfl, .early _ (.inl ⟨rfl, .inr hne⟩)⟩
            | true =>
              have hinv : Conn.Inv w.fds ⟨fun _ => none, fun _ => none, w.fds, [], []⟩ := by constructor <;> simp
              have hr := (Conn.c62_init w.fds 1 _ hinv _ _ _ _ hi).1 rfl
              have h0 : s.tried = [] := by
                obtain ⟨i1, i2, i3, -⟩ := Conn.reset_ok hinv
                have := (Conn.initLoop_ok (min 1 Conn.maxip) 0 _ w.kern ⟨i1, fun j hj => absurd hj (by omega), fun j _ => i2 j⟩ (by omega) true s kern hi).2.1
                rw [this, i3]
              exact confine_ok st _ (reach_ok hw st hst.crwtimeout.2.1 host _ hn h255 hg w.fds s hr h0 kern)

end SmtpMain
