import Verif.Tcp.Lemmas
/-
The possible courses of a run of tlswrapper-tcp on a good command line.
-/
namespace TcpMain
open Conf.Spec (Opt values last)
open Relay Relay.Tcp

/-- No answer of the kernel reports a signal. -/
def NoSignal (evs : List Ev) : Prop := ∀ ev ∈ evs, ∀ r, ev.poll = some r → r.selfpipe = false

/-- What the relay did, given the header `H` and the two streams. -/
structure Relayed (w : World) (H rest : Bytes) (as : List (Act Relay.Tcp.Fd)) (code : Option Nat) : Prop where
  ends : code = none ∨ code = some 0
  up : ∀ pre post, as = pre ++ post → wroteOf .remoteout pre <+: H ++ readOf .localin pre
  down : ∀ pre post, as = pre ++ post → wroteOf .localout pre <+: readOf .remotein pre
  client : readOf .localin as <+: rest
  server : readOf .remotein as <+: w.server
  complete : (∀ ev ∈ w.evs, Productive ev) → 2 * rest.length + 2 * w.server.length + 8194 ≤ w.evs.length →
    code = some 0 ∧ wroteOf .remoteout as = H ++ rest ∧ wroteOf .localout as = w.server
  honest : code = some 0 → Act.failed .remoteout ∉ as → Act.failed .localout ∉ as → NoSignal w.evs →
    Act.ended .localin ∈ as ∧ Act.ended .remotein ∈ as ∧ wroteOf .remoteout as = H ++ readOf .localin as ∧
      wroteOf .localout as = readOf .remotein as

theorem forward_ok {w : World} (hw : Sound w) (pp : Bool) (e : Proxy.Ends) (rest : Bytes) (tr : List Obs) :
    ∃ res, forward w pp e rest tr = .ok res ∧
      ((pp = true ∧ (e = Proxy.zeroEnds ∨ w.alloc = false ∨ 8192 < (Proxy.headerText w.codec e).length) ∧ res = ⟨tr, some 100⟩) ∨
       (pp = true → e ≠ Proxy.zeroEnds) ∧ ∃ as, res.trace = tr ++ as.map .relay ∧ Relayed w (headerOf w.codec e pp) rest as res.code) := by
  rcases relay_cases w.codec w.alloc w.static w.imem w.omem e pp hw.static hw.imem rest w.server w.evs with ⟨h1, h0, h2⟩ | ⟨hz, m, n, hm, hn, ht, hnl, h⟩
  · exact ⟨⟨tr, some 100⟩, by simp [forward, h2], .inl ⟨h1, h0, rfl⟩⟩
  · obtain ⟨s, why, el, -, -, -, -, -, hL, hR⟩ := c38_relay m w.omem hm hw.omem n hn rest w.server w.evs
    have hpre := fun pre post => c38_prefix m w.omem hm hw.omem n hn rest w.server w.evs s why el pre post
    rw [ht] at hpre
    have hcomp : (∀ ev ∈ w.evs, Productive ev) → 2 * rest.length + 2 * w.server.length + 8194 ≤ w.evs.length →
        why = some .finished ∧ wroteOf .remoteout s.log = headerOf w.codec e pp ++ rest ∧ wroteOf .localout s.log = w.server := by
      intro h1 h2
      obtain ⟨s2, e2, c1, c2, -⟩ := c39_complete m w.omem hm hw.omem n hn rest w.server w.evs h1 (by omega)
      rw [el] at e2
      cases e2
      rw [ht] at c1
      exact ⟨rfl, c1, c2⟩
    cases why with
    | none =>
      refine ⟨⟨tr ++ s.log.map .relay, none⟩, by simp [forward, h, el], .inr ⟨hz, s.log, rfl, ?_⟩⟩
      exact ⟨.inl rfl, fun pre post hp => (hpre pre post hp).1, fun pre post hp => (hpre pre post hp).2, hL, hR,
        fun h1 h2 => absurd (hcomp h1 h2).1 (by simp), fun h => by cases h⟩
    | some y =>
      obtain ⟨l, hl, hc⟩ := closing_log s
      have hlio := fun (k : List (Act Relay.Tcp.Fd)) (hk : ∀ a ∈ k, a ∈ l) f => closing_io k (fun a ha => hc a (hk a ha)) f
      have ro : ∀ f, readOf f (s.log ++ l) = readOf f s.log := by
        intro f
        have := (hlio l (fun _ h => h) f).1
        unfold readOf at *
        rw [List.flatMap_append, this, List.append_nil]
      have wo : ∀ f, wroteOf f (s.log ++ l) = wroteOf f s.log := by
        intro f
        have := (hlio l (fun _ h => h) f).2
        unfold wroteOf at *
        rw [List.flatMap_append, this, List.append_nil]
      -- a prefix of the trace is a prefix of the relay's, or all of it and some of the closing
      have cut : ∀ pre post, s.log ++ l = pre ++ post → ∃ p q, s.log = p ++ q ∧ (∀ f, readOf f pre = readOf f p) ∧ ∀ f, wroteOf f pre = wroteOf f p := by
        intro pre post hp
        rcases List.append_eq_append_iff.mp hp with ⟨a, h1, h2⟩ | ⟨a, h1, h2⟩
        · refine ⟨s.log, [], by simp, ?_, ?_⟩
          · intro f
            have := (hlio a (fun x hx => by rw [h2]; simp [hx]) f).1
            rw [h1]
            unfold readOf at *
            rw [List.flatMap_append, this, List.append_nil]
          · intro f
            have := (hlio a (fun x hx => by rw [h2]; simp [hx]) f).2
            rw [h1]
            unfold wroteOf at *
            rw [List.flatMap_append, this, List.append_nil]
        · exact ⟨pre, a, h1, fun _ => rfl, fun _ => rfl⟩
      refine ⟨⟨tr ++ (closeRemoteout (closeRemotein s)).log.map .relay, some 0⟩, by simp [forward, h, el],
        .inr ⟨hz, s.log ++ l, by rw [hl], ?_⟩⟩
      refine ⟨.inr rfl, ?_, ?_, by rw [ro]; exact hL, by rw [ro]; exact hR, ?_, ?_⟩
      · intro pre post hp
        obtain ⟨p, q, k1, k2, k3⟩ := cut pre post hp
        rw [k2, k3]
        exact (hpre p q k1).1
      · intro pre post hp
        obtain ⟨p, q, k1, k2, k3⟩ := cut pre post hp
        rw [k2, k3]
        exact (hpre p q k1).2
      · intro h1 h2
        rw [wo, wo]
        exact ⟨rfl, (hcomp h1 h2).2⟩
      · intro _ f1 f2 f3
        have := c39_finished m w.omem hm hw.omem n hn rest w.server w.evs s y el (fun h => f1 (by simp [h])) (fun h => f2 (by simp [h]))
          (by
            rintro rfl
            obtain ⟨ev, h1, r, h2, h3⟩ := loop_signal _ _ _ el
            rw [f3 ev h1 r h2] at h3
            cases h3)
        rw [ht] at this
        refine ⟨by simp [this.1], by simp [this.2.1], ?_, ?_⟩
        · rw [wo, ro]; exact this.2.2.2.2.1
        · rw [wo, ro]; exact this.2.2.2.2.2

/-- The addresses found for a host. -/
def Addrs (w : World) (host : Bytes) (bs : List Bytes) : Prop :=
  ∃ as, w.gai host = .list as ∧ bs.Perm (Resolve.wanted as 8) ∧ bs ≠ [] ∧ bs.length ≤ 8

/-- The beginning of a trace. -/
def conf (w : World) (st : Cmd.TcpStarted) : List Obs := if w.nojail then [] else [.jailed st.opts.account st.opts.empty_dir]
def lead (w : World) (st : Cmd.TcpStarted) (rest : Bytes) : List Obs :=
  if st.opts.ppin then [.header (w.client.src.take (w.client.src.length - rest.length))] else []

inductive Course (w : World) (opts : List Opt) (st : Cmd.TcpStarted) : Res → Prop where
  | early (code : Option Nat) : code = some 111 ∨ code = none → Course w opts st ⟨[], code⟩
  | silent : st.opts.ppin = true → Course w opts st ⟨conf w st, none⟩
  | refused (used : Bytes) : st.opts.ppin = true → Course w opts st ⟨conf w st ++ [.header used], some 100⟩
  | connecting (e : Proxy.Ends) (rest : Bytes) : Client w opts e rest → Course w opts st ⟨conf w st ++ lead w st rest, none⟩
  | unreachable (e : Proxy.Ends) (rest : Bytes) (bs : List Bytes) : Client w opts e rest → Addrs w st.host bs →
      Course w opts st ⟨conf w st ++ lead w st rest ++ bs.map (Obs.connect · st.port), some 111⟩
  | headless (e : Proxy.Ends) (rest : Bytes) (bs : List Bytes) (m : Nat) : Client w opts e rest → Addrs w st.host bs → 1 ≤ m → m ≤ bs.length →
      st.opts.ppout = true → (e = Proxy.zeroEnds ∨ w.alloc = false ∨ 8192 < (Proxy.headerText w.codec e).length) →
      Course w opts st ⟨conf w st ++ lead w st rest ++ (bs.take m).map (Obs.connect · st.port), some 100⟩
  | relayed (e : Proxy.Ends) (rest : Bytes) (bs : List Bytes) (m : Nat) (as : List (Act Relay.Tcp.Fd)) (code : Option Nat) :
      Client w opts e rest → Addrs w st.host bs → 1 ≤ m → m ≤ bs.length →
      (st.opts.ppout = true → e ≠ Proxy.zeroEnds) →
      Relayed w (headerOf w.codec e st.opts.ppout) rest as code →
      Course w opts st ⟨conf w st ++ lead w st rest ++ (bs.take m).map (Obs.connect · st.port) ++ as.map .relay, code⟩

theorem limit_pos {t : Bytes} {v : Int} (h : Conf.Spec.Limit t v) : 1 ≤ v := h.2.1

theorem reach_ok {w : World} (hw : Sound w) (opts : List Opt) (st : Cmd.TcpStarted) (hto : 1 ≤ st.connecttimeout) (ip : Bytes) (bs : List Bytes)
    (hA : Addrs w st.host bs) (hB : Resolve.Blocks bs) (ht : ip.take (16 * bs.length) = bs.flatten) (o : List Nat) (s : Conn.St)
    (hs : Conn.Ready o bs.length s) (h0 : s.tried = []) (kern : List Conn.Ev) (e : Proxy.Ends) (rest : Bytes) (hc : Client w opts e rest) :
    ∃ res, reach w st ip ((16 * bs.length : Nat) : Int) s kern e rest (conf w st ++ lead w st rest) = .ok res ∧ Course w opts st res := by
  have h1 : 1 ≤ bs.length := by
    obtain ⟨_, _, _, h, _⟩ := hA
    exact List.length_pos_iff.2 h
  have h8 : bs.length ≤ Conn.maxip := by
    obtain ⟨_, _, _, _, h⟩ := hA
    exact h
  unfold reach
  rcases hcon : Conn.conn st.connecttimeout ip ((16 * bs.length : Nat) : Int) s kern with _ | ⟨d, ev'⟩
  · exact ⟨_, rfl, .connecting e rest hc⟩
  · obtain ⟨m, m1, m2, hm, hf⟩ := Conn.conn_tried o st.connecttimeout ip bs.length h1 h8 s hs hto h0 kern ev' d hcon
    rw [cand_block hB ht m m2] at hm
    have hmap : d.st.tried.reverse.map (fun t => Obs.connect t.2 st.port) = (bs.take m).map (Obs.connect · st.port) := by
      rw [← hm, List.map_map]; rfl
    simp only [hmap]
    cases hret : d.ret with
    | fail =>
      refine ⟨_, rfl, ?_⟩
      rw [hf hret, List.take_length]
      exact .unreachable e rest bs hc hA
    | ok fd dup =>
      simp only []
      obtain ⟨res, er, h⟩ := forward_ok hw st.opts.ppout e rest (conf w st ++ lead w st rest ++ (bs.take m).map (Obs.connect · st.port))
      refine ⟨res, er, ?_⟩
      rcases h with ⟨hp, h0, rfl⟩ | ⟨hz, as, h2, h3⟩
      · exact .headless e rest bs m hc hA m1 m2 hp h0
      · obtain ⟨tr, code⟩ := res
        simp only at h2 h3
        subst h2
        exact .relayed e rest bs m as code hc hA m1 m2 hz h3

theorem meet_ok {w : World} (hw : Sound w) (opts : List Opt) (emptydir host port : Bytes) (st : Cmd.TcpStarted)
    (hst : Cmd.TcpServes emptydir opts host port st) (ip : Bytes) (bs : List Bytes)
    (hA : Addrs w st.host bs) (hB : Resolve.Blocks bs) (ht : ip.take (16 * bs.length) = bs.flatten) (o : List Nat) (s : Conn.St)
    (hs : Conn.Ready o bs.length s) (h0 : s.tried = []) (kern : List Conn.Ev) :
    ∃ res, meet w st ip ((16 * bs.length : Nat) : Int) s kern (conf w st) = .ok res ∧ Course w opts st res := by
  have hto := limit_pos hst.connecttimeout
  unfold meet
  by_cases hp : st.opts.ppin = true
  · rw [if_pos hp]
    rcases Proxy.get_cases w.codec hw.codec w.client with h | ⟨r, L, fd', h, hL, -, h3⟩
    · rw [h]
      exact ⟨_, rfl, .silent hp⟩
    · rw [h]
      simp only [Out.ok_bind]
      cases r with
      | none => exact ⟨_, rfl, .refused _ hp⟩
      | some e =>
        rcases h3 with ⟨-, h4, h5⟩ | ⟨h3, _⟩ | ⟨h3, _⟩
        · have hc : Client w opts e fd'.src := .announced L (hst.incoming.mp hp) h4 hL ((h5 e).mp rfl)
          have := reach_ok hw opts st hto ip bs hA hB ht o s hs h0 kern e fd'.src hc
          rw [lead, if_pos hp] at this
          exact this
        · cases h3
        · cases h3
  · rw [if_neg hp]
    obtain ⟨ok, e, h, h1, h2, -⟩ := ConnInfo.c65_get w.codec hw.apart w.env hw.strings w.loc w.peer Proxy.zeroEnds
    rw [h]
    simp only [Out.ok_bind]
    have hc : Client w opts e w.client.src := .direct (fun h => hp (hst.incoming.mpr h)) rfl (fun x hx => (h1 x hx).2) (fun hn x hx => (h2 hn x hx).2)
    have := reach_ok hw opts st hto ip bs hA hB ht o s hs h0 kern e w.client.src hc
    rw [lead, if_neg hp, List.append_nil] at this
    exact this

theorem boot_ok {w : World} (hw : Sound w) (opts : List Opt) (emptydir host port : Bytes) (hn : NoNul host) (st : Cmd.TcpStarted)
    (hst : Cmd.TcpServes emptydir opts host port st) : ∃ res, boot w st = .ok res ∧ Course w opts st res := by
  unfold boot
  by_cases hfk : (!w.nojail && !w.fork) = true
  · rw [if_pos hfk]; exact ⟨_, rfl, .early _ (.inl rfl)⟩
  · rw [if_neg hfk]
    obtain ⟨r, ip, e, h⟩ := lookup_ok hw st.host (by rw [hst.host]; exact hn)
    rw [e]
    simp only [Out.ok_bind]
    by_cases h1 : r < 0
    · rw [if_pos h1]; exact ⟨_, rfl, .early _ (.inl rfl)⟩
    · rw [if_neg h1]
      by_cases h2 : r = 0
      · rw [if_pos h2]; exact ⟨_, rfl, .early _ (.inl rfl)⟩
      · rw [if_neg h2]
        obtain ⟨as, bs, hg, hp, hB, hne, h8, rfl, hl, ht⟩ := h.resolve_left (by omega)
        have hA : Addrs w st.host bs := ⟨as, hg, hp, hne, h8⟩
        obtain ⟨us, hus⟩ := logLoop_defined ip hl bs.length h8 256 0
        rw [hus]
        simp only [Out.ok_bind, ite_self]
        split
        · exact ⟨_, rfl, .early _ (.inl rfl)⟩
        · rw [show ((16 * bs.length : Nat) : Int).toNat / 16 = bs.length by omega]
          rcases hi : Conn.init bs.length ⟨fun _ => none, fun _ => none, w.fds, [], []⟩ w.kern with _ | ⟨b, s, kern⟩
          · exact ⟨_, rfl, .early _ (.inr rfl)⟩
          · cases b with
            | false => exact ⟨_, rfl, .early _ (.inl rfl)⟩
            | true =>
              simp only []
              have hinv : Conn.Inv w.fds ⟨fun _ => none, fun _ => none, w.fds, [], []⟩ := by constructor <;> simp
              have hr := (Conn.c62_init w.fds bs.length _ hinv _ _ _ _ hi).1 rfl
              rw [Nat.min_eq_left (show bs.length ≤ Conn.maxip from h8)] at hr
              have h0 : s.tried = [] := by
                obtain ⟨i1, i2, i3, -⟩ := Conn.reset_ok hinv
                have := (Conn.initLoop_ok (min bs.length Conn.maxip) 0 _ w.kern ⟨i1, fun j hj => absurd hj (by omega), fun j _ => i2 j⟩ (by omega) true s kern hi).2.1
                rw [this, i3]
              have hm := meet_ok hw opts emptydir host port st hst ip bs hA hB ht w.fds s hr h0 kern
              unfold confine
              unfold conf at hm
              by_cases hj : w.nojail = true
              · rw [if_pos hj] at hm ⊢; exact hm
              · rw [if_neg hj] at hm ⊢
                split
                · exact hm
                · exact ⟨_, rfl, .early _ (.inl rfl)⟩

end TcpMain
