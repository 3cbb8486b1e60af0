import Verif.Proxy.Codec
import Verif.Proxy.Lemmas
import Verif.Num.Props
import Verif.ConnInfo.Spec
/-
C65: where the endpoints of a connection come from, and what the child sees of
them.
-/
namespace ConnInfo
open Proxy

theorem var_unique {env : Env} {n t t' : Bytes} (h : Var env n t) (h' : Var env n t') : t = t' := by
  obtain ⟨p, q, rfl, hp⟩ := h
  obtain ⟨p', q', e, hp'⟩ := h'
  induction p generalizing p' with
  | nil =>
    cases p' with
    | nil => simp at e; exact e.1
    | cons x p' => simp at e; exact absurd (by rw [← e.1]) (hp' x (by simp))
  | cons y p ih =>
    cases p' with
    | nil => simp at e; exact absurd (by rw [e.1]) (hp y (by simp))
    | cons x p' =>
      simp at e
      exact ih (fun z hz => hp z (by simp [hz])) p' e.2 (fun z hz => hp' z (by simp [hz]))

theorem var_cases (env : Env) (n : Bytes) :
    (getenv env n = none ∧ ∀ t, ¬ Var env n t) ∨ ∃ t, getenv env n = some (cstr t []) ∧ Var env n t ∧ (n, t) ∈ env := by
  induction env with
  | nil => left; exact ⟨rfl, by rintro t ⟨p, q, h, -⟩; simp at h⟩
  | cons x env ih =>
    by_cases hx : x.1 = n
    · right
      refine ⟨x.2, ?_, ⟨[], env, ?_, by simp⟩, ?_⟩
      · simp [getenv, hx]
      · simp [← hx]
      · simp [← hx]
    · have hg : getenv (x :: env) n = getenv env n := by simp [getenv, hx]
      rw [hg]
      rcases ih with ⟨h1, h2⟩ | ⟨t, h1, ⟨p, q, rfl, hp⟩, h3⟩
      · left
        refine ⟨h1, ?_⟩
        rintro t ⟨p, q, h, hp⟩
        cases p with
        | nil => simp at h; exact hx (by rw [h.1])
        | cons y p =>
          simp at h
          exact h2 t ⟨p, q, h.2, fun z hz => hp z (by simp [hz])⟩
      · right
        refine ⟨t, h1, ⟨x :: p, q, by simp, ?_⟩, by simp⟩
        intro z hz
        rcases List.mem_cons.mp hz with rfl | hz
        · exact hx
        · exact hp z hz

/-- What parseip makes of a variable. -/
theorem ip_var (C : IpCodec) (hA : Apart C) (env : Env) (hs : Strings env) (n : Bytes) :
    (parseip C (getenv env n) = .ok none ∧ ∀ t six a, Var env n t → ¬ AddrOf C six t a) ∨
    ∃ t six a, parseip C (getenv env n) = .ok (some a) ∧ Var env n t ∧ AddrOf C six t a := by
  rcases var_cases env n with ⟨h1, h2⟩ | ⟨t, h1, h2, h3⟩
  · left; rw [h1]; exact ⟨rfl, fun t _ _ h => absurd h (h2 t)⟩
  · have hn : NoNul t := hs _ h3
    rw [h1]
    simp only [parseip]
    rw [parseip4_pure C t [] hn]
    simp only [Out.ok_bind]
    cases h4 : C.pton4 t with
    | some a => right; exact ⟨t, false, _, rfl, h2, .v4 h4⟩
    | none =>
      simp only [Option.map_none]
      rw [parseip6_pure C t [] hn]
      cases h6 : C.pton6 t with
      | some a => right; exact ⟨t, true, a, rfl, h2, .v6 h6⟩
      | none =>
        left
        refine ⟨rfl, ?_⟩
        intro t' six a hv ha
        rw [var_unique hv h2] at ha
        cases ha with
        | v4 h => simp [h4] at h
        | v6 h => simp [h6] at h

theorem port_var (env : Env) (hs : Strings env) (n : Bytes) :
    (Num.parseport (getenv env n) = .ok none ∧ ∀ t p, Var env n t → ¬ PortOf t p) ∨
    ∃ t p, Num.parseport (getenv env n) = .ok (some p) ∧ Var env n t ∧ PortOf t p := by
  rcases var_cases env n with ⟨h1, h2⟩ | ⟨t, h1, h2, h3⟩
  · left; rw [h1]; exact ⟨rfl, fun t _ h => absurd h (h2 t)⟩
  · have hn : NoNul t := hs _ h3
    rw [h1]
    obtain ⟨r, hr⟩ := port_total t [] hn
    have hr' : Num.parseport (some (cstr t [])) = .ok r := hr
    rw [hr']
    cases r with
    | some p => right; exact ⟨t, p, rfl, h2, (port_some t [] hn p).mp hr⟩
    | none =>
      left
      refine ⟨rfl, fun t' p hv hp => ?_⟩
      rw [var_unique hv h2] at hp
      rw [(port_some t [] hn p).mpr hp] at hr
      simp at hr

theorem fromenv_spec (C : IpCodec) (hA : Apart C) (env : Env) (hs : Strings env) (e0 : Ends) :
    (∃ e, fromenv C env e0 = .ok (false, e) ∧ ∀ e', ¬ FromEnv C env e') ∨
    ∃ e, fromenv C env e0 = .ok (true, e) ∧ FromEnv C env e := by
  unfold fromenv
  rcases ip_var C hA env hs b!"TCPLOCALIP" with ⟨h, hn⟩ | ⟨t1, s1, a1, h, v1, w1⟩
  · left; rw [h]; exact ⟨_, rfl, fun e' he => by obtain ⟨t, s, h1, h2⟩ := he.lip; exact hn t s _ h1 h2⟩
  rw [h]; simp only [Out.ok_bind, envLocalPort]
  rcases port_var env hs b!"TCPLOCALPORT" with ⟨h, hn⟩ | ⟨t2, p2, h, v2, w2⟩
  · left; rw [h]; exact ⟨_, rfl, fun e' he => by obtain ⟨t, h1, h2⟩ := he.lport; exact hn t _ h1 h2⟩
  rw [h]; simp only [Out.ok_bind, envRemoteIp]
  rcases ip_var C hA env hs b!"TCPREMOTEIP" with ⟨h, hn⟩ | ⟨t3, s3, a3, h, v3, w3⟩
  · left; rw [h]; exact ⟨_, rfl, fun e' he => by obtain ⟨t, s, h1, h2⟩ := he.rip; exact hn t s _ h1 h2⟩
  rw [h]; simp only [Out.ok_bind, envRemotePort]
  rcases port_var env hs b!"TCPREMOTEPORT" with ⟨h, hn⟩ | ⟨t4, p4, h, v4, w4⟩
  · left; rw [h]; exact ⟨_, rfl, fun e' he => by obtain ⟨t, h1, h2⟩ := he.rport; exact hn t _ h1 h2⟩
  rw [h]
  right
  exact ⟨_, rfl, ⟨t1, s1, v1, w1⟩, ⟨t2, v2, w2⟩, ⟨t3, s3, v3, w3⟩, ⟨t4, v4, w4⟩⟩

theorem fromfd_spec (loc peer : Sock) (e0 : Ends) :
    ((fromfd loc peer e0).1 = false ∧ ∀ e, ¬ FromSock loc peer e) ∨
    ((fromfd loc peer e0).1 = true ∧ FromSock loc peer (fromfd loc peer e0).2) := by
  cases loc <;> cases peer
  case inet.inet => right; exact ⟨rfl, .inet, .inet⟩
  case inet.inet6 => right; exact ⟨rfl, .inet, .inet6⟩
  case inet6.inet => right; exact ⟨rfl, .inet6, .inet⟩
  case inet6.inet6 => right; exact ⟨rfl, .inet6, .inet6⟩
  all_goals left; refine ⟨rfl, fun e he => ?_⟩; obtain ⟨h1, h2⟩ := he; first | (cases h1; done) | (cases h2; done)

theorem portVal_inj {p q : Byte × Byte} (h : portVal p = portVal q) : p = q := by
  unfold portVal at h
  have h1 := p.1.toNat_lt; have h2 := p.2.toNat_lt; have h3 := q.1.toNat_lt; have h4 := q.2.toNat_lt
  have e1 : p.1.toNat = q.1.toNat := by omega
  have e2 : p.2.toNat = q.2.toNat := by omega
  exact Prod.ext (UInt8.toNat_inj.mp e1) (UInt8.toNat_inj.mp e2)

theorem addr_unique (C : IpCodec) (hA : Apart C) {t a b : Bytes} {s s' : Bool} (h : AddrOf C s t a)
    (h' : AddrOf C s' t b) : a = b := by
  cases h with
  | v4 h =>
    cases h' with
    | v4 h' => rw [h] at h'; cases h'; rfl
    | v6 h' => exact absurd h' (hA _ _ _ h)
  | v6 h =>
    cases h' with
    | v4 h' => exact absurd h (hA _ _ _ h')
    | v6 h' => rw [h] at h'; cases h'; rfl

theorem fromEnv_unique (C : IpCodec) (hA : Apart C) (env : Env) {e e' : Ends} (h : FromEnv C env e)
    (h' : FromEnv C env e') : e = e' := by
  obtain ⟨⟨t1, s1, v1, w1⟩, ⟨t2, v2, w2⟩, ⟨t3, s3, v3, w3⟩, ⟨t4, v4, w4⟩⟩ := h
  obtain ⟨⟨u1, r1, x1, y1⟩, ⟨u2, x2, y2⟩, ⟨u3, r3, x3, y3⟩, ⟨u4, x4, y4⟩⟩ := h'
  rw [var_unique x1 v1] at y1
  rw [var_unique x2 v2] at y2
  rw [var_unique x3 v3] at y3
  rw [var_unique x4 v4] at y4
  cases e; cases e'
  simp only [Ends.mk.injEq]
  exact ⟨addr_unique C hA w1 y1, portVal_inj (w2.2.symm.trans y2.2), addr_unique C hA w3 y3,
    portVal_inj (w4.2.symm.trans y4.2)⟩

theorem denotes_unique {s : Sock} {a a' : Bytes} {p p' : Byte × Byte} (h : Denotes s a p) (h' : Denotes s a' p') :
    a = a' ∧ p = p' := by
  cases h <;> cases h' <;> exact ⟨rfl, rfl⟩

theorem fromSock_unique {loc peer : Sock} {e e' : Ends} (h : FromSock loc peer e) (h' : FromSock loc peer e') :
    e = e' := by
  have h1 := denotes_unique h.loc h'.loc
  have h2 := denotes_unique h.peer h'.peer
  cases e; cases e'
  simp only [Ends.mk.injEq]
  exact ⟨h1.1, h1.2, h2.1, h2.2⟩

/-- C65: for every environment, every answer of the kernel about the socket and
whatever the buffers held: the call never leaves its objects. When the environment
gives endpoints (all four variables set and valid) those are returned; when it does
not, and the socket has an internet address on both ends, those are returned;
success is reported exactly when one of the two is available. -/
theorem c65_get (C : IpCodec) (hA : Apart C) (env : Env) (hs : Strings env) (loc peer : Sock) (e0 : Ends) :
    ∃ ok e, get C env loc peer e0 = .ok (ok, e) ∧
      (∀ x, FromEnv C env x → ok = true ∧ e = x) ∧
      ((∀ x, ¬ FromEnv C env x) → ∀ x, FromSock loc peer x → ok = true ∧ e = x) ∧
      (ok = true → FromEnv C env e ∨ FromSock loc peer e) := by
  unfold get
  rcases fromenv_spec C hA env hs e0 with ⟨e, h, hn⟩ | ⟨e, h, hy⟩
  · rw [h]
    refine ⟨(fromfd loc peer e).1, (fromfd loc peer e).2, rfl, fun x hx => absurd hx (hn x), fun _ x hx => ?_, fun ht => ?_⟩
    · rcases fromfd_spec loc peer e with ⟨-, h2⟩ | ⟨h1, h2⟩
      · exact absurd hx (h2 x)
      · exact ⟨h1, fromSock_unique h2 hx⟩
    · rcases fromfd_spec loc peer e with ⟨h1, -⟩ | ⟨-, h2⟩
      · simp [h1] at ht
      · exact .inr h2
  · rw [h]
    exact ⟨true, e, rfl, fun x hx => ⟨rfl, fromEnv_unique C hA env hy hx⟩, fun hn => absurd hy (hn e), fun _ => .inl hy⟩

theorem addr_sized (C : IpCodec) (hC : C.Lawful) {t a : Bytes} {s : Bool} (h : AddrOf C s t a) : a.length = 16 := by
  cases h with
  | v4 h => simp [v4prefix, (hC.in4 _ _ h).1]
  | v6 h => exact (hC.in6 _ _ h).1

theorem denotes_sized {s : Sock} {a : Bytes} {p : Byte × Byte} (hz : s.Sized) (h : Denotes s a p) : a.length = 16 := by
  cases h with
  | inet => simp [Sock.Sized] at hz; simp [v4prefix, hz]
  | inet6 => exact hz

/-- C65: what is reported with success is a pair of 16-byte addresses. -/
theorem c65_sized (C : IpCodec) (hC : C.Lawful) (hA : Apart C) (env : Env) (hs : Strings env) (loc peer : Sock)
    (hl : loc.Sized) (hp : peer.Sized) (e0 e : Ends) (h : get C env loc peer e0 = .ok (true, e)) : Sized e := by
  obtain ⟨ok, e', h1, -, -, h2⟩ := c65_get C hA env hs loc peer e0
  rw [h] at h1
  cases h1
  rcases h2 rfl with h2 | h2
  · obtain ⟨_, _, _, w1⟩ := h2.lip
    obtain ⟨_, _, _, w2⟩ := h2.rip
    exact ⟨addr_sized C hC w1, addr_sized C hC w2⟩
  · exact ⟨denotes_sized hl h2.loc, denotes_sized hp h2.peer⟩

/-! ### exporting -/

theorem setenv_var (env : Env) (n v : Bytes) : Var (setenv env n v) n v := by
  induction env with
  | nil => exact ⟨[], [], rfl, by simp⟩
  | cons x env ih =>
    rw [setenv]
    split
    · exact ⟨[], env, rfl, by simp⟩
    · rename_i hx
      obtain ⟨p, q, h, hp⟩ := ih
      refine ⟨x :: p, q, by rw [h]; simp, ?_⟩
      intro z hz
      rcases List.mem_cons.mp hz with rfl | hz
      · exact hx
      · exact hp z hz

theorem getenv_setenv_ne (env : Env) (n m v : Bytes) (h : m ≠ n) : getenv (setenv env n v) m = getenv env m := by
  induction env with
  | nil => simp [setenv, getenv, Ne.symm h]
  | cons x env ih =>
    rw [setenv]
    split
    · rename_i hx
      simp [getenv, hx, Ne.symm h]
    · by_cases hm : x.1 = m
      · simp [getenv, hm]
      · have e1 : ∀ l : Env, getenv (x :: l) m = getenv l m := by intro l; simp [getenv, hm]
        rw [e1, e1, ih]

theorem var_iff (env : Env) (n t : Bytes) : Var env n t ↔ getenv env n = some (cstr t []) := by
  rcases var_cases env n with ⟨h1, h2⟩ | ⟨t', h1, h2, -⟩
  · rw [h1]; simp [h2 t]
  · rw [h1]
    constructor
    · intro h; rw [var_unique h h2]
    · intro h
      have : t' = t := by simpa [cstr] using h
      exact this ▸ h2

theorem setenv_ne (env : Env) (n m v t : Bytes) (h : m ≠ n) : Var (setenv env n v) m t ↔ Var env m t := by
  rw [var_iff, var_iff, getenv_setenv_ne env n m v h]

theorem portText_eq (sb : Bytes) (p : Byte × Byte) (h : 6 ≤ sb.length) :
    ∃ sb', portText sb p = .ok (Num.Spec.decimal (portVal p), sb') ∧ 6 ≤ sb'.length := by
  obtain ⟨pad, h1, h2, h3⟩ := Num.c02_porttostr_prints sb p.1 p.2 h
  obtain ⟨k, rfl⟩ : ∃ k, pad = k + 1 := ⟨pad - 1, by omega⟩
  refine ⟨Num.Spec.decimal (Num.portNum p.1 p.2) ++ List.replicate (k + 1) 0 ++ sb.drop 6, ?_, ?_⟩
  · unfold portText
    rw [h3]
    simp only [Out.ok_bind, List.drop_zero]
    have : Num.Spec.decimal (Num.portNum p.1 p.2) ++ List.replicate (k + 1) 0 ++ sb.drop 6 =
        cstr (Num.Spec.decimal (Num.portNum p.1 p.2)) (List.replicate k 0 ++ sb.drop 6) := by
      simp [cstr, List.replicate_succ]
    rw [show cstrOf (Num.Spec.decimal (Num.portNum p.1 p.2) ++ List.replicate (k + 1) 0 ++ sb.drop 6) =
      .ok (Num.Spec.decimal (Num.portNum p.1 p.2)) from by rw [this]; exact cstrOf_cstr _ _ (Num.decimal_noNul _)]
    rfl
  · simp; omega

/-- The four variables the child is given. -/
def names : List Bytes := [b!"TCPREMOTEIP", b!"TCPREMOTEPORT", b!"TCPLOCALIP", b!"TCPLOCALPORT"]

/-- The text of each of the four variables. -/
def textOf (C : IpCodec) (e : Ends) (n : Bytes) : Bytes :=
  if n = b!"TCPREMOTEIP" then iptostr C e.remoteip
  else if n = b!"TCPREMOTEPORT" then Num.Spec.decimal (portVal e.remoteport)
  else if n = b!"TCPLOCALIP" then iptostr C e.localip
  else Num.Spec.decimal (portVal e.localport)

theorem set_eq (C : IpCodec) (sb : Bytes) (hb : 6 ≤ sb.length) (o1 o2 o3 o4 : Bool) (env : Env) (e : Ends) :
    set C sb o1 o2 o3 o4 env e = .ok
      (setenvIf o4 (setenvIf o3 (setenvIf o2 (setenvIf o1 env b!"TCPREMOTEIP" (iptostr C e.remoteip))
        b!"TCPREMOTEPORT" (Num.Spec.decimal (portVal e.remoteport))) b!"TCPLOCALIP" (iptostr C e.localip))
        b!"TCPLOCALPORT" (Num.Spec.decimal (portVal e.localport))) := by
  obtain ⟨s1, h1, l1⟩ := portText_eq sb e.remoteport hb
  obtain ⟨s2, h2, l2⟩ := portText_eq s1 e.localport l1
  unfold set
  rw [h1]
  simp only [Out.ok_bind]
  rw [h2]
  rfl

theorem setenvIf_ne (o : Bool) (env : Env) (n m v : Bytes) (h : m ≠ n) : getenv (setenvIf o env n v) m = getenv env m := by
  cases o
  · rfl
  · exact getenv_setenv_ne env n m v h

theorem setenvIf_same (o : Bool) (env : Env) (n v : Bytes) :
    getenv (setenvIf o env n v) n = if o then some (cstr v []) else getenv env n := by
  cases o
  · rfl
  · exact (var_iff _ _ _).mp (setenv_var env n v)

/-- C65: exporting never leaves its objects and touches only the four variables; when
setting a variable succeeds the child sees exactly the text of the endpoint, and when
it fails (which is not noticed) the old value. -/
theorem c65_set (C : IpCodec) (sb : Bytes) (hb : 6 ≤ sb.length) (o1 o2 o3 o4 : Bool) (env : Env) (e : Ends) :
    ∃ env', set C sb o1 o2 o3 o4 env e = .ok env' ∧
      (∀ n, n ∉ names → getenv env' n = getenv env n) ∧
      (∀ n o, (n, o) ∈ [(b!"TCPREMOTEIP", o1), (b!"TCPREMOTEPORT", o2), (b!"TCPLOCALIP", o3), (b!"TCPLOCALPORT", o4)] →
        getenv env' n = if o then some (cstr (textOf C e n) []) else getenv env n) := by
  refine ⟨_, set_eq C sb hb o1 o2 o3 o4 env e, ?_, ?_⟩
  · intro n hn
    simp only [names, List.mem_cons, not_or, List.not_mem_nil] at hn
    rw [setenvIf_ne _ _ _ _ _ hn.2.2.2.1, setenvIf_ne _ _ _ _ _ hn.2.2.1, setenvIf_ne _ _ _ _ _ hn.2.1,
      setenvIf_ne _ _ _ _ _ hn.1]
  · intro n o hn
    simp only [List.mem_cons, Prod.mk.injEq, List.not_mem_nil, or_false] at hn
    rcases hn with ⟨rfl, rfl⟩ | ⟨rfl, rfl⟩ | ⟨rfl, rfl⟩ | ⟨rfl, rfl⟩
    · rw [setenvIf_ne _ _ _ _ _ (by decide), setenvIf_ne _ _ _ _ _ (by decide), setenvIf_ne _ _ _ _ _ (by decide),
        setenvIf_same]; rfl
    · rw [setenvIf_ne _ _ _ _ _ (by decide), setenvIf_ne _ _ _ _ _ (by decide), setenvIf_same,
        setenvIf_ne _ _ _ _ _ (by decide)]; rfl
    · rw [setenvIf_ne _ _ _ _ _ (by decide), setenvIf_same, setenvIf_ne _ _ _ _ _ (by decide),
        setenvIf_ne _ _ _ _ _ (by decide)]; rfl
    · rw [setenvIf_same, setenvIf_ne _ _ _ _ _ (by decide), setenvIf_ne _ _ _ _ _ (by decide),
        setenvIf_ne _ _ _ _ _ (by decide)]; rfl

theorem addr_of_text (C : IpCodec) (hC : C.Lawful) (a : Bytes) (h : a.length = 16) :
    ∃ six, AddrOf C six (iptostr C a) a := by
  unfold iptostr
  split
  · rename_i hp
    refine ⟨false, ?_⟩
    have := AddrOf.v4 (C := C) (hC.rt4 (a.drop 12) (by simp; omega))
    rw [show ([0,0,0,0,0,0,0,0,0,0,255,255] : Bytes) = List.take 12 a from hp.symm, List.take_append_drop] at this
    exact this
  · exact ⟨true, .v6 (hC.rt6 a h)⟩

theorem text_noNul (C : IpCodec) (hC : C.Lawful) {six : Bool} {t a : Bytes} (h : AddrOf C six t a) : NoNul t := by
  cases h with
  | v4 h => intro b hb; exact (ipchar_ne b ((hC.in4 _ _ h).2 b hb)).2.1
  | v6 h => intro b hb; exact (ipchar_ne b ((hC.in6 _ _ h).2 b hb)).2.1

/-- C65: what one process exports the next one reads back: in the environment set for
the child, the endpoints are exactly those the wrapper had. -/
theorem c65_roundtrip (C : IpCodec) (hC : C.Lawful) (sb : Bytes) (hb : 6 ≤ sb.length) (env : Env) (e : Ends)
    (hz : Sized e) :
    ∃ env', set C sb true true true true env e = .ok env' ∧ FromEnv C env' e := by
  obtain ⟨env', h1, -, h2⟩ := c65_set C sb hb true true true true env e
  refine ⟨env', h1, ?_⟩
  have hp : ∀ p, PortOf (Num.Spec.decimal (portVal p)) p := fun p => ⟨Num.numeral_decimal _, Num.value_decimal _⟩
  obtain ⟨s1, w1⟩ := addr_of_text C hC e.localip hz.1
  obtain ⟨s2, w2⟩ := addr_of_text C hC e.remoteip hz.2
  exact ⟨⟨_, s1, (var_iff _ _ _).mpr (h2 b!"TCPLOCALIP" true (by simp)), w1⟩,
    ⟨_, (var_iff _ _ _).mpr (h2 b!"TCPLOCALPORT" true (by simp)), hp _⟩,
    ⟨_, s2, (var_iff _ _ _).mpr (h2 b!"TCPREMOTEIP" true (by simp)), w2⟩,
    ⟨_, (var_iff _ _ _).mpr (h2 b!"TCPREMOTEPORT" true (by simp)), hp _⟩⟩

/-! ### the hypotheses can be met -/

theorem parse6_nodot (s a : Bytes) (h : parse6 s = some a) : c! '.' ∉ s := by
  have hx : ∀ h l x, unhex h l = some x → h ≠ c! '.' ∧ l ≠ c! '.' := by
    intro h l x hh
    constructor
    · rintro rfl; simp [unhex, unhexd] at hh
    · rintro rfl
      unfold unhex at hh
      split at hh
      · rename_i e1 e2; simp [unhexd] at e2
      · simp at hh
  fun_induction parse6 s generalizing a with
  | case1 h1 l1 h2 l2 x y e1 e2 =>
    have p1 := hx _ _ _ e1; have p2 := hx _ _ _ e2
    simp [Ne.symm p1.1, Ne.symm p1.2, Ne.symm p2.1, Ne.symm p2.2]
  | case2 => simp at h
  | case3 h1 l1 h2 l2 r x y r' e3 e1 e2 ih =>
    have p1 := hx _ _ _ e1; have p2 := hx _ _ _ e2
    simp [Ne.symm p1.1, Ne.symm p1.2, Ne.symm p2.1, Ne.symm p2.2, ih _ e3]
  | case4 => simp at h
  | case5 => simp at h
  | case6 => simp at h

theorem cCodec_apart : Apart cCodec := by
  intro s a b h4 h6
  simp only [cCodec] at h4 h6
  have hd : c! '.' ∉ s := by
    unfold cpton6 at h6
    split at h6
    · rename_i x hx; exact parse6_nodot _ _ hx
    · simp at h6
  unfold cpton4 at h4
  rw [splitOn_free _ _ hd] at h4
  simp at h4

/-- a complete environment is used -/
example : get cCodec [(b!"HOME", b!"/"), (b!"TCPLOCALIP", b!"10.0.0.1"), (b!"TCPLOCALPORT", b!"25"), (b!"TCPREMOTEIP", b!"10.0.0.2"),
      (b!"TCPREMOTEPORT", b!"65535")] .failed .failed zeroEnds =
    .ok (true, ⟨v4prefix ++ [10, 0, 0, 1], (0, 25), v4prefix ++ [10, 0, 0, 2], (255, 255)⟩) := by decide +kernel

/-- an incomplete one is not, and nothing of it remains -/
example : get cCodec [(b!"TCPLOCALIP", b!"10.0.0.1"), (b!"TCPLOCALPORT", b!"25"), (b!"TCPREMOTEIP", b!"10.0.0.2"),
      (b!"TCPREMOTEPORT", b!"65536")] (.inet [1, 2, 3, 4] (0, 80)) (.inet6 (List.replicate 16 7) (1, 2)) zeroEnds =
    .ok (true, ⟨v4prefix ++ [1, 2, 3, 4], (0, 80), List.replicate 16 7, (1, 2)⟩) := by decide +kernel

/-- C65: on failure the buffers may hold part of the environment: here the local end
comes from the environment and the remote end is what it was. The callers ignore the
failure (main_tlswrapper.c:1449, main_tlswrapper_smtp.c:1016, main_tlswrapper_tcp.c:348)
and go on with these values. -/
theorem c65_failure_keeps_part :
    get cCodec [(b!"TCPLOCALIP", b!"10.0.0.1"), (b!"TCPLOCALPORT", b!"25")] .failed .failed zeroEnds =
      .ok (false, ⟨v4prefix ++ [10, 0, 0, 1], (0, 25), zeroIp, (0, 0)⟩) := by decide +kernel

/-- an exported environment is read back -/
example : (set cCodec (List.replicate 6 0) true true true true [(b!"TCPREMOTEIP", b!"x"), (b!"HOME", b!"/")]
      ⟨v4prefix ++ [10, 0, 0, 1], (0, 25), List.replicate 16 7, (1, 2)⟩ >>= fun env' =>
    get cCodec env' .failed .failed zeroEnds) = .ok (true, ⟨v4prefix ++ [10, 0, 0, 1], (0, 25), List.replicate 16 7, (1, 2)⟩) := by
  decide +kernel

end ConnInfo
