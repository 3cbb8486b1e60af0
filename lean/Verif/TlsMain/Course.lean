import Verif.TlsMain.Spec
import Verif.Path.Props
import Verif.Proxy.Props
import Verif.ConnInfo.Props
import Verif.Session.Props
/-
The possible courses of a run of tlswrapper on a good command line.
-/
namespace TlsMain
open Conf.Spec (Opt values last switch certs)
open Main (Outcome)

variable {E : Type}

/-- The endpoints are 16 bytes each, also when nothing could be found out. -/
theorem get_sized (C : Proxy.IpCodec) (hC : C.Lawful) (hA : ConnInfo.Apart C) (env : ConnInfo.Env) (hs : ConnInfo.Strings env)
    (loc peer : ConnInfo.Sock) (hl : loc.Sized) (hp : peer.Sized) (e0 e : Proxy.Ends) (ok : Bool)
    (h0 : ConnInfo.Sized e0) (h : ConnInfo.get C env loc peer e0 = .ok (ok, e)) : ConnInfo.Sized e := by
  have hloc : ∀ x y, ConnInfo.Sized x → ConnInfo.putLocal x loc = some y → ConnInfo.Sized y := by
    intro x y hx hy
    cases loc <;> simp only [ConnInfo.putLocal, Option.some.injEq, reduceCtorEq] at hy <;> subst hy
    · exact ⟨by simp [ConnInfo.Sock.Sized] at hl; simp [Proxy.v4prefix, hl], hx.2⟩
    · exact ⟨hl, hx.2⟩
  have hpeer : ∀ x y, ConnInfo.Sized x → ConnInfo.putRemote x peer = some y → ConnInfo.Sized y := by
    intro x y hx hy
    cases peer <;> simp only [ConnInfo.putRemote, Option.some.injEq, reduceCtorEq] at hy <;> subst hy
    · exact ⟨hx.1, by simp [ConnInfo.Sock.Sized] at hp; simp [Proxy.v4prefix, hp]⟩
    · exact ⟨hx.1, hp⟩
  have hfd : ∀ x, ConnInfo.Sized x → ConnInfo.Sized (ConnInfo.fromfd loc peer x).2 := by
    intro x hx
    unfold ConnInfo.fromfd
    cases h1 : ConnInfo.putLocal x loc with
    | none => exact hx
    | some y =>
      have hy := hloc x y hx h1
      simp only
      cases h2 : ConnInfo.putRemote y peer with
      | none => exact hy
      | some z => exact hpeer y z hy h2
  have henv : ∃ b x, ConnInfo.fromenv C env e0 = .ok (b, x) ∧ ConnInfo.Sized x := by
    unfold ConnInfo.fromenv
    rcases ConnInfo.ip_var C hA env hs b!"TCPLOCALIP" with ⟨h, -⟩ | ⟨t1, s1, a1, h, -, w1⟩
    · rw [h]; exact ⟨_, _, rfl, h0⟩
    rw [h]; simp only [Out.ok_bind, ConnInfo.envLocalPort]
    rcases ConnInfo.port_var env hs b!"TCPLOCALPORT" with ⟨h, -⟩ | ⟨t2, p2, h, -⟩
    · rw [h]; exact ⟨_, _, rfl, ConnInfo.addr_sized C hC w1, h0.2⟩
    rw [h]; simp only [Out.ok_bind, ConnInfo.envRemoteIp]
    rcases ConnInfo.ip_var C hA env hs b!"TCPREMOTEIP" with ⟨h, -⟩ | ⟨t3, s3, a3, h, -, w3⟩
    · rw [h]; exact ⟨_, _, rfl, ConnInfo.addr_sized C hC w1, h0.2⟩
    rw [h]; simp only [Out.ok_bind, ConnInfo.envRemotePort]
    rcases ConnInfo.port_var env hs b!"TCPREMOTEPORT" with ⟨h, -⟩ | ⟨t4, p4, h, -⟩
    · rw [h]; exact ⟨_, _, rfl, ConnInfo.addr_sized C hC w1, ConnInfo.addr_sized C hC w3⟩
    · rw [h]; exact ⟨_, _, rfl, ConnInfo.addr_sized C hC w1, ConnInfo.addr_sized C hC w3⟩
  obtain ⟨b, x, e1, hx⟩ := henv
  unfold ConnInfo.get at h
  rw [e1] at h
  simp only [Out.ok_bind] at h
  split at h
  · cases h; exact hx
  · have hx := hfd x hx
    have h : ConnInfo.fromfd loc peer x = (ok, e) := by simpa using h
    rw [h] at hx
    exact hx

theorem line_longer {n : Byte} {a b x y : Bytes} (hb : n ∉ b) (h : a ++ n :: x = b ++ y) : b.length ≤ a.length := by
  rcases List.append_eq_append_iff.mp h with ⟨z, h1, h2⟩ | ⟨z, h1, h2⟩
  · cases z with
    | nil => rw [h1]; simp
    | cons c z =>
      simp only [List.cons_append, List.cons.injEq] at h2
      rw [h1, ← h2.1] at hb
      simp at hb
  · rw [h1]; simp

theorem line_unique {n : Byte} {a b x y : Bytes} (ha : n ∉ a) (hb : n ∉ b) (h : a ++ n :: x = b ++ n :: y) : a = b :=
  (List.append_inj h (Nat.le_antisymm (line_longer ha h.symm) (line_longer hb h))).1

/-- The bytes taken as header when `rest` follows. -/
def lead (w : World E) (opts : List Opt) (rest : Bytes) : List Obs :=
  if b!"1" ∈ values (c! 'p') opts then [.header (w.client.src.take (w.client.src.length - rest.length))] else []

/-- A session of this client. -/
def Sess (w : World E) (opts : List Opt) (e : Proxy.Ends) (rest : Bytes) (r : Session.Run E) : Prop :=
  ∃ e0, Session.session w.engine e0 (last (c! 'U') opts).isSome (switch (c! 'n') (c! 'N') false opts) e w.m1 w.m2
    rest w.output w.control w.wevs w.evs1 w.evs2 = .ok r

inductive Course (w : World E) (emptydir : Bytes) (opts : List Opt) (prog : List Bytes) : Res → Prop where
  | early (tr : List Obs) : ¬ Ready w opts → tr <+: plan w emptydir opts prog → Course w emptydir opts prog ⟨tr, some (.exit 111)⟩
  | asking (fn : Bytes) : (values (c! 'a') opts).head? = some fn → w.anchor (Path.Spec.undot (Path.Spec.collapse fn)) = .waits → Course w emptydir opts prog ⟨plan w emptydir opts prog, none⟩
  | silent : Ready w opts → b!"1" ∈ values (c! 'p') opts → Course w emptydir opts prog ⟨plan w emptydir opts prog, none⟩
  | refused (used : Bytes) : Ready w opts → b!"1" ∈ values (c! 'p') opts → used <+: w.client.src →
      (∀ L e rest, w.client.src = L ++ c! '\n' :: rest → c! '\n' ∉ L → L.length < 127 → Proxy.Loose w.codec L e →
        ∃ ev ∈ w.client.evs, Proxy.Bad ev) →
      Course w emptydir opts prog ⟨plan w emptydir opts prog ++ [.header used], some (.exit 100)⟩
  | meeting (e : Proxy.Ends) (rest : Bytes) (fate : Option Outcome) : Ready w opts → Client w opts e rest →
      fate = none ∨ fate = some (.exit 111) →
      Course w emptydir opts prog ⟨plan w emptydir opts prog ++ lead w opts rest, fate⟩
  | session (e : Proxy.Ends) (rest : Bytes) (r : Session.Run E) : Ready w opts → Client w opts e rest →
      ConnInfo.Sized e → Sess w opts e rest r → r ≠ .boot →
      Course w emptydir opts prog ⟨plan w emptydir opts prog ++ lead w opts rest ++ seen r, over w r⟩

theorem converse_ok {w : World E} (hw : Sound w) {emptydir : Bytes} {opts : List Opt} {prog : List Bytes} {st : Conf.Started}
    (hst : Conf.Serves w.fs emptydir opts prog st) (hr : Ready w opts) (e : Proxy.Ends) (rest : Bytes) (hc : Client w opts e rest)
    (hz : ConnInfo.Sized e) :
    ∃ res, converse w st e rest (plan w emptydir opts prog ++ lead w opts rest) = .ok res ∧ Course w emptydir opts prog res := by
  unfold converse
  rcases h : Session.sendAll ⟨[], w.wevs⟩ (Session.preamble st.opts.ctx.flagdelayedenc e) with _ | _ | fd
  · exact ⟨_, rfl, .meeting e rest _ hr hc (.inl rfl)⟩
  · exact ⟨_, rfl, .meeting e rest _ hr hc (.inr rfl)⟩
  · simp only
    obtain ⟨r, er, hs⟩ := Session.shape hw.engine (w.profile st.opts.ctx) st.opts.userfromcert.isSome st.opts.ctx.flagdelayedenc e
      w.m1 w.m2 rest w.output w.control hw.m1 hw.m2 w.wevs w.evs1 w.evs2
    rw [er]
    refine ⟨_, rfl, .session e rest r hr hc hz ⟨w.profile st.opts.ctx, ?_⟩ ?_⟩
    · rw [hst.certuser, hst.delayed] at er
      exact er
    · rintro rfl
      unfold Session.session at er
      rw [h] at er
      simp only at er
      split at er
      · obtain ⟨s, why, e1, -⟩ := Relay.Clear.c41_relay w.m1 w.m2 rest w.output w.control hw.m1 hw.m2 w.evs1
        rw [e1] at er
        simp only [Out.ok_bind, Session.afterClear] at er
        split at er
        · obtain ⟨t, y, e2⟩ := Relay.Tls.c45_defined hw.engine s.w.op st.opts.userfromcert.isSome true (w.profile st.opts.ctx) s.net s.chd w.evs2
          rw [e2] at er
          cases er
        · cases er
      · obtain ⟨t, y, e2⟩ := Relay.Tls.c45_defined hw.engine Session.noCtl.op st.opts.userfromcert.isSome false (w.profile st.opts.ctx) rest w.output w.evs2
        rw [e2] at er
        cases er

theorem meet_ok {w : World E} (hw : Sound w) {emptydir : Bytes} {opts : List Opt} {prog : List Bytes} {st : Conf.Started}
    (hst : Conf.Serves w.fs emptydir opts prog st) (hr : Ready w opts) :
    ∃ res, meet w st (plan w emptydir opts prog) = .ok res ∧ Course w emptydir opts prog res := by
  unfold meet
  by_cases hp : st.opts.ppin = true
  · have hp1 := hst.proxy.mp hp
    rw [if_pos hp]
    rcases Proxy.get_cases w.codec hw.codec w.client with h | ⟨r, L, fd', h, hL, -, h3⟩
    · rw [h]
      exact ⟨_, rfl, .silent hr hp1⟩
    · rw [h]
      simp only [Out.ok_bind]
      cases r with
      | none =>
        refine ⟨_, rfl, .refused _ hr hp1 (List.take_prefix _ _) ?_⟩
        intro L' e' rest' h1 h2 h4 h5
        rcases h3 with ⟨-, h6, h7⟩ | ⟨-, h6, h7⟩ | ⟨-, h6, h7, h8⟩
        · rw [h1] at h6
          have := line_unique h2 hL h6
          rw [this] at h5
          have := (h7 e').mpr h5
          cases this
        · rw [h1] at h7
          exact absurd (line_longer hL h7) (by omega)
        · rcases h8 with h8 | h8
          · rw [h1, h8, List.append_nil] at h7
            exact absurd (h7 ▸ hL) (by simp)
          · exact h8
      | some e =>
        rcases h3 with ⟨-, h4, h5⟩ | ⟨h3, _⟩ | ⟨h3, _⟩
        · have hc : Client w opts e fd'.src := .announced L hp1 h4 hL ((h5 e).mp rfl)
          have := converse_ok hw hst hr e fd'.src hc (Proxy.c09_sizes w.codec hw.codec w.client fd' e h)
          rw [lead, if_pos hp1] at this
          exact this
        · cases h3
        · cases h3
  · rw [if_neg hp]
    have hp1 : b!"1" ∉ values (c! 'p') opts := fun h => hp (hst.proxy.mpr h)
    obtain ⟨ok, e, h, h1, h2, -⟩ := ConnInfo.c65_get w.codec hw.apart w.env hw.strings w.loc w.peer Proxy.zeroEnds
    rw [h]
    simp only [Out.ok_bind]
    have hc : Client w opts e w.client.src := .direct hp1 rfl (fun x hx => (h1 x hx).2) (fun hn x hx => (h2 hn x hx).2)
    have := converse_ok hw hst hr e w.client.src hc
      (get_sized w.codec hw.codec hw.apart w.env hw.strings w.loc w.peer hw.loc hw.peer Proxy.zeroEnds e ok ⟨rfl, rfl⟩ h)
    rw [lead, if_neg hp1, List.append_nil] at this
    exact this

theorem plan_split (w : World E) (emptydir : Bytes) (opts : List Opt) (prog : List Bytes) :
    ∃ tl, plan w emptydir opts prog =
      [.program prog (last (c! 'u') opts) (last (c! 'U') opts).isSome, .keys (certs opts)] ++ tl := ⟨_, List.append_assoc _ _ _⟩

theorem trust_ok {w : World E} (hw : Sound w) {emptydir : Bytes} {opts : List Opt} {prog : List Bytes} {st : Conf.Started}
    (hst : Conf.Serves w.fs emptydir opts prog st) (hn : ∀ v ∈ values (c! 'a') opts, NoNul v)
    (h1 : w.pipes = true ∧ w.fork = true ∧ w.keypipes = true ∧ w.keyfork = true ∧ w.selfpipe = true)
    (h2 : switch (c! 'n') (c! 'N') false opts = true → w.busy = false ∧ w.devnull = true)
    (h3 : w.nojail = false → w.jail = true) :
    ∃ res, trust w st ([.program prog (last (c! 'u') opts) (last (c! 'U') opts).isSome, .keys (certs opts)] ++
      (if w.nojail then [] else [.jailed (last (c! 'j') opts) ((last (c! 'J') opts).getD emptydir)])) = .ok res ∧
      Course w emptydir opts prog res := by
  unfold trust
  have hm := fun h4 => meet_ok hw hst (⟨h1, h2, h3, h4⟩ : Ready w opts)
  have hE (tr) := Course.early (w := w) (emptydir := emptydir) (opts := opts) (prog := prog) tr
  have hA := Course.asking (w := w) (emptydir := emptydir) (opts := opts) (prog := prog)
  unfold plan at hm hE hA
  rw [hst.anchor]
  cases ha : (values (c! 'a') opts).head? with
  | none =>
    rw [ha] at hm
    simp only [List.append_nil] at hm
    exact hm (fun fn h => by cases h)
  | some fn =>
    have hmem : fn ∈ values (c! 'a') opts := List.mem_of_head? ha
    obtain ⟨junk, -, e⟩ := Path.c11_exact fn [] (hn fn hmem)
    have e : Path.fixpath (fn ++ [0]) = .ok (cstr (Path.Spec.undot (Path.Spec.collapse fn)) (junk ++ [])) := e
    have hno : NoNul (Path.Spec.undot (Path.Spec.collapse fn)) := by
      rw [← Path.fp_spec]; exact Path.fp_noNul _ _ (hn fn hmem)
    rw [ha] at hm hE hA
    simp only [e, Out.ok_bind, cstrOf_cstr _ _ hno]
    simp only at hm hE hA
    cases hq : w.anchor (Path.Spec.undot (Path.Spec.collapse fn)) with
    | waits => exact ⟨_, rfl, hA fn rfl hq⟩
    | refused =>
      refine ⟨_, rfl, hE _ (fun hr => ?_) (List.prefix_refl _)⟩
      obtain ⟨d, h, -⟩ := hr.anchor fn ha
      rw [hq] at h; cases h
    | pem d =>
      simp only
      split
      · rename_i hpd
        exact hm (fun fn' h => by injection h with h; subst h; exact ⟨d, hq, hpd⟩)
      · rename_i hpd
        refine ⟨_, rfl, hE _ (fun hr => ?_) (List.prefix_refl _)⟩
        obtain ⟨d', h, h'⟩ := hr.anchor fn ha
        rw [hq] at h; cases h
        exact hpd h'

theorem boot_ok {w : World E} (hw : Sound w) {emptydir : Bytes} {opts : List Opt} {prog : List Bytes} {st : Conf.Started}
    (hst : Conf.Serves w.fs emptydir opts prog st) (hn : ∀ v ∈ values (c! 'a') opts, NoNul v) :
    ∃ res, boot w st = .ok res ∧ Course w emptydir opts prog res := by
  obtain ⟨tl, hpl⟩ := plan_split w emptydir opts prog
  unfold boot
  rw [hst.delayed, hst.prog, hst.user, hst.certuser, hst.certs]
  split
  · rename_i hd
    refine ⟨_, rfl, .early _ (fun hr => ?_) List.nil_prefix⟩
    simp only [Bool.and_eq_true] at hd
    obtain ⟨h1, h2⟩ := hr.free hd.1
    rw [h1, h2] at hd
    simp at hd
  rename_i hd
  split
  · rename_i h
    refine ⟨_, rfl, .early _ (fun hr => ?_) List.nil_prefix⟩
    rw [hr.pipes.1, hr.pipes.2.1] at h
    simp at h
  rename_i hpf
  simp only
  split
  · rename_i h
    refine ⟨_, rfl, .early _ (fun hr => ?_) (by rw [hpl]; exact ⟨_, rfl⟩)⟩
    rw [hr.pipes.2.2.1, hr.pipes.2.2.2.1] at h
    simp at h
  rename_i hkf
  unfold confine
  have two : ∀ {tr}, tr = [Obs.program prog (last (c! 'u') opts) (last (c! 'U') opts).isSome, .keys (certs opts)] →
      tr <+: plan w emptydir opts prog := by
    rintro tr rfl
    rw [hpl]; exact ⟨_, rfl⟩
  split
  · rename_i h
    refine ⟨_, rfl, .early _ (fun hr => ?_) (two rfl)⟩
    rw [hr.pipes.2.2.2.2] at h
    simp at h
  rename_i hsp
  have hpipes : w.pipes = true ∧ w.fork = true ∧ w.keypipes = true ∧ w.keyfork = true ∧ w.selfpipe = true := by
    simp at hpf hkf hsp
    exact ⟨hpf.1, hpf.2, hkf.1, hkf.2, hsp⟩
  have hfree : switch (c! 'n') (c! 'N') false opts = true → w.busy = false ∧ w.devnull = true := by
    intro h
    rw [h] at hd
    simpa using hd
  have ht := trust_ok hw hst hn hpipes hfree
  split
  · rename_i hj
    rw [if_pos hj, List.append_nil] at ht
    exact ht (fun h => by rw [hj] at h; cases h)
  rename_i hj
  rw [if_neg hj] at ht
  split
  · rename_i hjl
    rw [hst.jaildir, hst.jailaccount]
    exact ht (fun _ => hjl)
  · rename_i hjl
    refine ⟨_, rfl, .early _ (fun hr => ?_) (two rfl)⟩
    exact hjl (hr.jail (by simpa using hj))

theorem runs {w : World E} (hw : Sound w) (emptydir a : Bytes) {args : List Bytes} (ha : ∀ x ∈ args, NoNul x) {opts : List Opt}
    {prog : List Bytes} (h : Conf.Good w.fs args opts prog) :
    ∃ res, program w emptydir (a :: args) = .ok res ∧ Course w emptydir opts prog res := by
  obtain ⟨st, e, hst⟩ := Conf.c60_starts w.fs emptydir a args ha opts prog h
  obtain ⟨res, er, hc⟩ := boot_ok hw hst (fun v hv => Conf.value_noNul (Conf.reads_known h.1 ha) hv)
  exact ⟨res, by simp [program, e, er], hc⟩

theorem run_course {w : World E} (hw : Sound w) {emptydir a : Bytes} {args : List Bytes} (ha : ∀ x ∈ args, NoNul x) {opts : List Opt}
    {prog : List Bytes} (h : Conf.Good w.fs args opts prog) {res : Res} (hr : program w emptydir (a :: args) = .ok res) :
    Course w emptydir opts prog res := by
  obtain ⟨res', h2, h3⟩ := runs hw emptydir a ha h
  rw [hr] at h2
  cases h2
  exact h3

end TlsMain
