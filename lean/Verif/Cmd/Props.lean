import Verif.Cmd.Lemmas
import Verif.HostPort.Props
/-
C77: the name a program is invoked by selects the program, and the command lines of tlswrapper-tcp and
tlswrapper-smtp mean what their options say.
-/
namespace Cmd
open Conf (Res values_flag values_arg last_flag last_arg switch_flag switch_arg verbosity_flag verbosity_arg)
open Conf.Spec (Opt values last switch Limit verbosity)
open Spec Num.Spec HostPort.Spec
open Num (portNum)

/-! ### The name -/

theorem basenameLoop_ok (n : Bytes) (hn : NoNul n) (rest ret : Bytes) :
    (c! '/' ∉ n → basenameLoop (n ++ 0 :: rest) ret = .ok ret) ∧
    (∀ d m, n = d ++ c! '/' :: m → c! '/' ∉ m → basenameLoop (n ++ 0 :: rest) ret = .ok (m ++ 0 :: rest)) := by
  induction n generalizing ret with
  | nil => exact ⟨fun _ => by simp [basenameLoop], fun d m h => by simp at h⟩
  | cons b n ih =>
    have hb : b ≠ 0 := hn b (by simp)
    have ih := ih (fun x hx => hn x (by simp [hx]))
    constructor
    · intro h
      simp only [List.mem_cons, not_or] at h
      rw [List.cons_append, basenameLoop, if_neg hb, if_neg (fun e => h.1 e.symm)]
      exact (ih ret).1 h.2
    · intro d m h hm
      rw [List.cons_append, basenameLoop, if_neg hb]
      cases d with
      | nil =>
        simp only [List.nil_append, List.cons.injEq] at h
        obtain ⟨rfl, rfl⟩ := h
        rw [if_pos rfl]
        exact (ih _).1 hm
      | cons x d =>
        simp only [List.cons_append, List.cons.injEq] at h
        exact (ih _).2 d m h.2 hm

theorem str_equal_ok (x y : Bytes) (hx : NoNul x) (hy : NoNul y) : str_equal (x ++ [0]) (y ++ [0]) = .ok (decide (x = y)) := by
  have := Str.c27_diff x y [] [] hx hy
  simp only [cstr] at this
  simp [str_equal, this.1, this.2]

/-- **C77 (name).** The last component of the name the program is invoked by selects the program. -/
theorem c77_name (path name : Bytes) (args : List Bytes) (hp : NoNul path) (h : Named path name) :
    main (path :: args) = .ok (if name = b!"tlswrapper-tcp" then .tcp
      else if name = b!"tlswrapper-smtp" then .smtp else .wrapper) := by
  have e : basename (path ++ [0]) = .ok (name ++ [0]) := by
    obtain ⟨h1, h | ⟨d, h⟩⟩ := h
    · subst h; exact (basenameLoop_ok _ hp [] _).1 h1
    · exact (basenameLoop_ok _ hp [] _).2 d name h h1
  have hn : NoNul name := by
    obtain ⟨-, rfl | ⟨d, rfl⟩⟩ := h
    · exact hp
    · exact fun b hb => hp b (by simp [hb])
  simp only [main, e, Res.lift, bind, Res.bind, str_equal_ok name _ hn (show NoNul b!"tlswrapper-tcp" by decide),
    str_equal_ok name _ hn (show NoNul b!"tlswrapper-smtp" by decide), pure]
  by_cases h1 : name = b!"tlswrapper-tcp"
  · simp [h1]
  · by_cases h2 : name = b!"tlswrapper-smtp"
    · subst h2; simp
    · simp [h1, h2]

/-- Every path has exactly one last component, so `c77_name` applies to every name. -/
theorem named_exists (path : Bytes) : ∃ name, Named path name ∧ ∀ n, Named path n → n = name := by
  induction path with
  | nil =>
    refine ⟨[], ⟨by simp, .inl rfl⟩, fun n h => ?_⟩
    obtain ⟨-, h | ⟨d, h⟩⟩ := h
    · exact h.symm
    · simp at h
  | cons b p ih =>
    obtain ⟨m, ⟨h1, h2⟩, hu⟩ := ih
    by_cases hs : c! '/' ∈ p
    · obtain ⟨d, hd⟩ : ∃ d, p = d ++ c! '/' :: m := by
        rcases h2 with rfl | h2
        · exact absurd hs h1
        · exact h2
      refine ⟨m, ⟨h1, .inr ⟨b :: d, by rw [hd]; rfl⟩⟩, fun n h => hu n ?_⟩
      obtain ⟨g1, rfl | ⟨d', g⟩⟩ := h
      · exact absurd (List.mem_cons_of_mem _ hs) g1
      · cases d' with
        | nil =>
          simp only [List.nil_append, List.cons.injEq] at g
          exact absurd (g.2 ▸ hs) g1
        | cons x d' =>
          simp only [List.cons_append, List.cons.injEq] at g
          exact ⟨g1, .inr ⟨d', g.2⟩⟩
    · by_cases hb : b = c! '/'
      · subst hb
        refine ⟨p, ⟨hs, .inr ⟨[], rfl⟩⟩, fun n h => ?_⟩
        obtain ⟨g1, rfl | ⟨d', g⟩⟩ := h
        · exact absurd (by simp) g1
        · cases d' with
          | nil => simp only [List.nil_append, List.cons.injEq] at g; exact g.2.symm
          | cons x d' =>
            simp only [List.cons_append, List.cons.injEq] at g
            exact absurd (by rw [g.2]; simp) hs
      · refine ⟨b :: p, ⟨by simp [hs, Ne.symm hb], .inl rfl⟩, fun n h => ?_⟩
        obtain ⟨g1, g | ⟨d', g⟩⟩ := h
        · exact g.symm
        · exact absurd (by rw [g]; simp : c! '/' ∈ b :: p) (by simp [hs, Ne.symm hb])

example : Named b!"/usr/bin/tlswrapper-tcp" b!"tlswrapper-tcp" ∧
    main [b!"/usr/bin/tlswrapper-tcp", b!"h"] = .ok .tcp ∧ main [b!"/tlswrapper-smtp/x"] = .ok .wrapper ∧ main [] = .exit 100 :=
  ⟨⟨by decide, .inr ⟨b!"/usr/bin", rfl⟩⟩, by decide, by decide, rfl⟩

/-! ### Time limits -/

theorem timeout_ok (x : Bytes) (hx : NoNul x) :
    (∀ v, Limit x v → timeout_parse x = .ok v) ∧ ((¬ ∃ v, Limit x v) → timeout_parse x = .exit 100) :=
  Conf.timeout_ok x hx

theorem value_noNul {F A : Bytes} {l : List Opt} (hk : ∀ x ∈ l, Known F A x) {c : Byte} {v : Bytes} (h : v ∈ values c l) : NoNul v := by
  obtain ⟨x, hx, hv⟩ := List.mem_filterMap.mp h
  cases x with
  | flag _ => simp at hv
  | arg d w =>
    simp only [Option.ite_none_right_eq_some, Option.some.injEq] at hv
    exact hv.2 ▸ (hk _ hx).2

theorem last_noNul {F A : Bytes} {l : List Opt} (hk : ∀ x ∈ l, Known F A x) (c : Byte) (d : Bytes) (hd : NoNul d) :
    NoNul ((last c l).getD d) := by
  cases e : last c l with
  | none => exact hd
  | some v => exact value_noNul hk (Conf.last_mem e)

theorem limit_num (x : Bytes) (v : Int) (hx : NoNul x) (h : Num.parsenum 1 86400 (some (x ++ [0])) = .ok (1, v)) :
    ∃ v, Limit x v :=
  ⟨v, (Num.c01_parsenum_accepts x [] hx 1 86400 v (by unfold IsLL llmin llmax; omega) (by unfold IsLL llmin llmax; omega)).mp h⟩

theorem level_ok (n : Nat) : Log.set_level n = Min.min (n : Int) 4 := by
  simp only [Log.set_level]
  repeat' split
  all_goals omega

/-! ### tlswrapper-tcp -/

theorem tcp_has : Has tcpLetters tcpFlags tcpArgs where
  flag c o := by
    simp only [tcpLetters, tcpFlags, List.mem_cons, List.not_mem_nil, or_false]
    repeat' split
    all_goals simp_all
  arg c := by
    simp only [tcpLetters, tcpArgs, List.mem_cons, List.not_mem_nil, or_false]
    repeat' split
    all_goals simp_all
  disjoint := by decide

/-- The settings after a list of options. -/
def tcpConf (d : Bytes) (l : List Opt) : Tcp where
  timeoutstr := (last (c! 't') l).getD b!"3600"
  connecttimeoutstr := (last (c! 'T') l).getD b!"10"
  ppin := decide (b!"1" ∈ values (c! 'p') l)
  ppout := decide (b!"1" ∈ values (c! 'P') l)
  account := last (c! 'j') l
  empty_dir := (last (c! 'J') l).getD d
  flagverbose := verbosity l
  log_level := Log.set_level (verbosity l)

/-- The options that take a protocol version take 0 and 1. -/
def TcpOk : Opt → Prop
  | .flag _ => True
  | .arg c v => c = c! 'p' ∨ c = c! 'P' → v = b!"0" ∨ v = b!"1"

theorem pp_ok (v : Bytes) (hv : NoNul v) (o : Tcp) :
    pp_incoming v o = (if v = b!"0" then .ok o else if v = b!"1" then .ok { o with ppin := true } else .exit 100) ∧
    pp_outgoing v o = (if v = b!"0" then .ok o else if v = b!"1" then .ok { o with ppout := true } else .exit 100) := by
  have e (n : Bytes) : decide (n = v) = decide (v = n) := by simp [eq_comm]
  constructor
  all_goals
    simp only [pp_incoming, pp_outgoing, str_equal_ok _ v (show NoNul b!"0" by decide) hv, str_equal_ok _ v (show NoNul b!"1" by decide) hv,
      Res.lift, bind, Res.bind, pure, e]
    by_cases h0 : v = b!"0"
    · simp [h0]
    · by_cases h1 : v = b!"1"
      · subst h1; simp
      · simp [h0, h1]

theorem tcp_means (d : Bytes) : Means tcpLetters tcpFlags tcpArgs (tcpConf d) TcpOk where
  ok l x hk hok := by
    cases x with
    | flag c =>
      simp only [Known, tcpFlags, List.mem_cons, List.not_mem_nil, or_false] at hk
      rcases hk with rfl | rfl | rfl <;>
        simp [step, tcpLetters, tcpConf, values_flag, last_flag, verbosity_flag]
    | arg c v =>
      obtain ⟨hc, hv⟩ := hk
      simp only [tcpArgs, List.mem_cons, List.not_mem_nil, or_false] at hc
      rcases hc with rfl | rfl | rfl | rfl | rfl | rfl
      · simp [step, tcpLetters, tcpConf, values_arg, last_arg, verbosity_arg]
      · simp [step, tcpLetters, tcpConf, values_arg, last_arg, verbosity_arg]
      · have := hok (.inl rfl)
        rcases this with rfl | rfl <;>
          simp [step, tcpLetters, (pp_ok _ hv _).1, tcpConf, values_arg, last_arg, verbosity_arg]
      · have := hok (.inr rfl)
        rcases this with rfl | rfl <;>
          simp [step, tcpLetters, (pp_ok _ hv _).2, tcpConf, values_arg, last_arg, verbosity_arg]
      · simp [step, tcpLetters, tcpConf, values_arg, last_arg, verbosity_arg]
      · simp [step, tcpLetters, tcpConf, values_arg, last_arg, verbosity_arg]
  bad o x hk hok := by
    cases x with
    | flag c => exact absurd trivial hok
    | arg c v =>
      have hv := hk.2
      simp only [TcpOk, Classical.not_imp, not_or] at hok
      obtain ⟨rfl | rfl, h0, h1⟩ := hok
      · simp [step, tcpLetters, (pp_ok _ hv _).1, h0, h1]
      · simp [step, tcpLetters, (pp_ok _ hv _).2, h0, h1]

theorem tcpOk_iff (l : List Opt) : (∀ x ∈ l, TcpOk x) ↔
    (∀ v ∈ values (c! 'p') l, v = b!"0" ∨ v = b!"1") ∧ (∀ v ∈ values (c! 'P') l, v = b!"0" ∨ v = b!"1") := by
  have mem (c : Byte) (v : Bytes) : v ∈ values c l ↔ Opt.arg c v ∈ l := by
    simp only [values, List.mem_filterMap]
    constructor
    · rintro ⟨x, hx, h⟩
      cases x with
      | flag _ => simp at h
      | arg d w =>
        simp only [Option.ite_none_right_eq_some, Option.some.injEq] at h
        obtain ⟨rfl, rfl⟩ := h
        exact hx
    · intro h; exact ⟨_, h, by simp⟩
  constructor
  · intro h
    exact ⟨fun v hv => h _ ((mem _ _).mp hv) (.inl rfl), fun v hv => h _ ((mem _ _).mp hv) (.inr rfl)⟩
  · rintro ⟨h1, h2⟩ x hx
    cases x with
    | flag _ => trivial
    | arg c v =>
      rintro (rfl | rfl)
      · exact h1 v ((mem _ _).mpr hx)
      · exact h2 v ((mem _ _).mpr hx)

/-- The settings are those the options mean. -/
structure TcpServes (emptydir : Bytes) (opts : List Opt) (host port : Bytes) (st : TcpStarted) : Prop where
  host : st.host = host
  port : portNum st.port.1 st.port.2 = value port
  timeout : Limit ((last (c! 't') opts).getD b!"3600") st.timeout
  connecttimeout : Limit ((last (c! 'T') opts).getD b!"10") st.connecttimeout
  incoming : st.opts.ppin = true ↔ b!"1" ∈ values (c! 'p') opts
  outgoing : st.opts.ppout = true ↔ b!"1" ∈ values (c! 'P') opts
  account : st.opts.account = last (c! 'j') opts
  jaildir : st.opts.empty_dir = (last (c! 'J') opts).getD emptydir
  verbosity : st.opts.log_level = Min.min (Conf.Spec.verbosity opts : Int) 4

theorem port_ok (p : Bytes) (hp : NoNul p) :
    (PortText p → ∃ hi lo, Num.parseport (some (p ++ [0])) = .ok (some (hi, lo)) ∧ portNum hi lo = value p) ∧
    (¬ PortText p → Num.parseport (some (p ++ [0])) = .ok none) := by
  have acc := Num.c02_parseport_accepts p [] hp
  have tot := Num.c02_parseport_total p [] hp
  simp only [cstr] at acc tot
  constructor
  · rintro ⟨h1, h2⟩
    have e : portNum (UInt8.ofNat (value p / 256)) (UInt8.ofNat (value p % 256)) = value p := by
      simp only [portNum, UInt8.toNat_ofNat']
      omega
    exact ⟨_, _, (acc _ _).mpr ⟨h1, e.symm⟩, e⟩
  · intro h
    rcases tot with e | ⟨hi, lo, e⟩
    · exact e
    · obtain ⟨h1, h2⟩ := (acc hi lo).mp e
      refine absurd ⟨h1, ?_⟩ h
      have := hi.toNat_lt
      have := lo.toNat_lt
      rw [h2]; unfold portNum; omega

/-- **C77 (tlswrapper-tcp).** A good command line is served with what its options mean. -/
theorem c77_tcp (emptydir a : Bytes) (args : List Bytes) (ha : ∀ x ∈ args, NoNul x) (opts : List Opt) (host port : Bytes)
    (h : TcpGood args opts host port) :
    ∃ st, tcpStart emptydir (a :: args) = .ok st ∧ TcpServes emptydir opts host port st := by
  obtain ⟨⟨more, hr⟩, hp, hi, ho, ⟨t, ht⟩, ⟨u, hu⟩⟩ := h
  obtain ⟨hk, hrest⟩ := reads_known hr ha
  have hopt := (options_means tcp_has (tcp_means emptydir) args ha).1 opts _ hr ((tcpOk_iff opts).mpr ⟨hi, ho⟩)
  obtain ⟨p1, p2, e1, e2⟩ := (port_ok port (hrest _ (by simp))).1 hp
  have k1 := (timeout_ok _ (last_noNul hk (c! 't') b!"3600" (by decide))).1 t ht
  have k2 := (timeout_ok _ (last_noNul hk (c! 'T') b!"10" (by decide))).1 u hu
  refine ⟨⟨tcpConf emptydir opts, host, (p1, p2), t, u⟩, ?_, ?_⟩
  · have hopt : options tcpLetters args (tcpInitial emptydir) = _ := hopt
    simp only [tcpStart, hopt, bind, Res.bind, List.head?_cons, Option.map_some, e1, Res.lift]
    simp only [tcpConf, k1, k2, pure]
  · exact ⟨rfl, e2, ht, hu, by simp [tcpConf], by simp [tcpConf], rfl, rfl, level_ok _⟩

/-- **C77 (tlswrapper-tcp).** Any other command line ends the process with exit code 100. -/
theorem c77_tcp_refuses (emptydir : Bytes) (argv : List Bytes) (ha : ∀ x ∈ argv, NoNul x)
    (h : ¬ ∃ a args opts host port, argv = a :: args ∧ TcpGood args opts host port) :
    tcpStart emptydir argv = .exit 100 := by
  cases argv with
  | nil => rfl
  | cons a args =>
    have ha : ∀ x ∈ args, NoNul x := fun x hx => ha x (by simp [hx])
    have M := options_means tcp_has (tcp_means emptydir) args ha
    by_cases hr : ∃ opts rest, Reads tcpFlags tcpArgs args opts rest ∧ ∀ x ∈ opts, TcpOk x
    · obtain ⟨opts, rest, hr, hok⟩ := hr
      have hopt : options tcpLetters args (tcpInitial emptydir) = _ := M.1 opts rest hr hok
      obtain ⟨hk, hrest⟩ := reads_known hr ha
      obtain ⟨hi, ho⟩ := (tcpOk_iff opts).mp hok
      simp only [tcpStart, hopt, bind, Res.bind]
      cases rest with
      | nil => rfl
      | cons host rest =>
        cases rest with
        | nil => rfl
        | cons port more =>
          simp only [List.head?_cons, Option.map_some]
          by_cases hp : PortText port
          · obtain ⟨p1, p2, e1, e2⟩ := (port_ok port (hrest _ (by simp))).1 hp
            simp only [e1, Res.lift]
            have k1 := timeout_ok _ (last_noNul hk (c! 't') b!"3600" (by decide))
            have k2 := timeout_ok _ (last_noNul hk (c! 'T') b!"10" (by decide))
            by_cases ht : ∃ v, Limit ((last (c! 't') opts).getD b!"3600") v
            · by_cases hu : ∃ v, Limit ((last (c! 'T') opts).getD b!"10") v
              · exact absurd ⟨a, args, opts, host, port, rfl, ⟨more, hr⟩, hp, hi, ho, ht, hu⟩ h
              · obtain ⟨t, ht⟩ := ht
                simp only [tcpConf, k1.1 t ht, k2.2 hu]
            · simp only [tcpConf, k1.2 ht]
          · simp only [(port_ok port (hrest _ (by simp))).2 hp, Res.lift]
    · have hopt : options tcpLetters args (tcpInitial emptydir) = _ := M.2 hr
      simp only [tcpStart, hopt, bind, Res.bind]

example : TcpGood [b!"-vT5", b!"-p", b!"1", b!"--", b!"mx.example", b!"25"] [.flag (c! 'v'), .arg (c! 'T') b!"5", .arg (c! 'p') b!"1"]
    b!"mx.example" b!"25" :=
  ⟨⟨[], .word (w := b!"vT5") (by decide) (by decide) (.flag (by decide) (.attached (by decide) (by decide)))
    (.word (w := b!"p") (by decide) (by decide) (.separate (by decide)) .dashes)⟩,
    ⟨⟨by decide, by decide, by decide⟩, by decide⟩, by decide, by decide,
    limit_num b!"3600" 3600 (by decide) (by decide +kernel),
    limit_num b!"5" 5 (by decide) (by decide +kernel)⟩

example : tcpStart b!"/var/empty" [b!"t", b!"-p", b!"2", b!"h", b!"25"] = .exit 100 ∧
    tcpStart b!"/var/empty" [b!"t", b!"h"] = .exit 100 ∧ tcpStart b!"/var/empty" [b!"t", b!"-x", b!"h", b!"25"] = .exit 100 := by
  decide +kernel

/-! ### tlswrapper-smtp -/

theorem smtp_has : Has smtpLetters smtpFlags smtpArgs where
  flag c o := by
    simp only [smtpLetters, smtpFlags, List.mem_cons, List.not_mem_nil, or_false]
    repeat' split
    all_goals simp_all
  arg c := by
    simp only [smtpLetters, smtpArgs, List.mem_cons, List.not_mem_nil, or_false]
    repeat' split
    all_goals simp_all
  disjoint := by decide

/-- The settings after a list of options. -/
def smtpConf (d : Bytes) (l : List Opt) : Smtp where
  user := last (c! 'u') l
  timeoutstr := (last (c! 't') l).getD b!"600"
  crwtimeoutstr := (last (c! 'T') l).getD b!"15"
  greylisthostport := last (c! 'g') l
  flaggreyfailclosed := switch (c! 'c') (c! 'C') false l
  jaildir := (last (c! 'J') l).getD d
  jailaccount := last (c! 'j') l
  flagverbose := verbosity l
  log_level := Log.set_level (verbosity l)

theorem smtp_means (d : Bytes) : Means smtpLetters smtpFlags smtpArgs (smtpConf d) (fun _ => True) where
  ok l x hk _ := by
    cases x with
    | flag c =>
      simp only [Known, smtpFlags, List.mem_cons, List.not_mem_nil, or_false] at hk
      rcases hk with rfl | rfl | rfl | rfl | rfl <;>
        simp [step, smtpLetters, smtpConf, last_flag, verbosity_flag, switch_flag]
    | arg c v =>
      have hc := hk.1
      simp only [smtpArgs, List.mem_cons, List.not_mem_nil, or_false] at hc
      rcases hc with rfl | rfl | rfl | rfl | rfl | rfl <;>
        simp [step, smtpLetters, smtpConf, last_arg, verbosity_arg, switch_arg]
  bad o x _ h := absurd trivial h

/-- The settings are those the options mean. -/
structure SmtpServes (ip6 : Bytes → Bool) (emptydir : Bytes) (opts : List Opt) (prog : List Bytes) (st : SmtpStarted) : Prop where
  prog : st.prog = prog
  timeout : Limit ((last (c! 't') opts).getD b!"600") st.timeout
  crwtimeout : Limit ((last (c! 'T') opts).getD b!"15") st.crwtimeout
  noGreylist : last (c! 'g') opts = none → st.greylist = none
  greylist : ∀ x, last (c! 'g') opts = some x → ∃ host port hi lo, Parts ip6 x host port ∧ host.length ≤ 255 ∧ portNum hi lo = value port ∧
    st.greylist = some (host ++ List.replicate (256 - host.length) 0, hi, lo)
  failClosed : st.opts.flaggreyfailclosed = switch (c! 'c') (c! 'C') false opts
  user : st.opts.user = last (c! 'u') opts
  account : st.opts.jailaccount = last (c! 'j') opts
  jaildir : st.opts.jaildir = (last (c! 'J') opts).getD emptydir
  verbosity : st.opts.log_level = Min.min (Conf.Spec.verbosity opts : Int) 4

theorem parts_noNul {ip6 : Bytes → Bool} {x h p : Bytes} (hx : NoNul x) (g : Parts ip6 x h p) : NoNul p := by
  obtain ⟨g1, -, -, -⟩ := HostPort.c05_pieces ip6 x h p g
  cases g with
  | host => exact fun b hb => by simp at hb
  | ip6 => exact fun b hb => by simp at hb
  | bracketed => exact fun b hb => by simp at hb
  | hostPort => exact fun b hb => hx b (by simp [hb])
  | bracketedPort => exact fun b hb => hx b (by simp [hb])

theorem greylist_ok (ip6 : Bytes → Bool) (buf x : Bytes) (hb : buf.length = 6) (hx : NoNul x) :
    (∀ host port, Parts ip6 x host port → host.length ≤ 255 → port ≠ [] → ∃ hi lo, portNum hi lo = value port ∧
      greylistParse ip6 (List.replicate 256 0) buf x = .ok (host ++ List.replicate (256 - host.length) 0, hi, lo)) ∧
    ((¬ ∃ host port, Parts ip6 x host port ∧ host.length ≤ 255 ∧ port ≠ []) →
      greylistParse ip6 (List.replicate 256 0) buf x = .exit 100) := by
  have acc (host port : Bytes) (hp : Parts ip6 x host port) (hl : host.length ≤ 255) :=
    HostPort.c05_accepts ip6 x [] (List.replicate 256 0) buf host port hx List.length_replicate hb hp hl
  simp only [cstr] at acc
  have pad (port : Bytes) (hp : port.length ≤ 5) : port ++ List.replicate (6 - port.length) 0 =
      cstr port (List.replicate (5 - port.length) 0) := by
    rw [show 6 - port.length = (5 - port.length) + 1 by omega, List.replicate_succ]; rfl
  have short (port : Bytes) (hp : PortText port) : port.length ≤ 5 := HostPort.portText_len hp
  constructor
  · intro host port hp hl hne
    obtain ⟨-, -, hpt, -⟩ := HostPort.c05_pieces ip6 x host port hp
    have hpt : PortText port := hpt.resolve_left hne
    have hn := parts_noNul hx hp
    have a2 := Num.c02_parseport_accepts port (List.replicate (5 - port.length) 0) hn
    have e : portNum (UInt8.ofNat (value port / 256)) (UInt8.ofNat (value port % 256)) = value port := by
      have := hpt.2
      simp only [portNum, UInt8.toNat_ofNat']
      omega
    refine ⟨_, _, e, ?_⟩
    simp only [greylistParse, acc host port hp hl, Res.lift, bind, Res.bind, pad port (short port hpt), (a2 _ _).mpr ⟨hpt.1, e.symm⟩]
    simp [pure]
  · intro h
    by_cases hx2 : ∃ host port, Parts ip6 x host port ∧ host.length ≤ 255
    · obtain ⟨host, port, hp, hl⟩ := hx2
      have : port = [] := Classical.byContradiction fun hne => h ⟨host, port, hp, hl, hne⟩
      subst this
      simp only [greylistParse, acc host [] hp hl, Res.lift, bind, Res.bind]
      have : Num.parseport (some ([] ++ List.replicate (6 - ([] : Bytes).length) 0)) = .ok none := by decide +kernel
      simp only [this]
      simp
    · have rej := HostPort.c05_rejects ip6 x [] (List.replicate 256 0) buf hx List.length_replicate hb hx2
      simp only [cstr] at rej
      simp only [greylistParse, rej, Res.lift, bind, Res.bind, if_true]

/-- **C77 (tlswrapper-smtp).** A good command line is served with what its options mean. -/
theorem c77_smtp (ip6 : Bytes → Bool) (emptydir buf a : Bytes) (hb : buf.length = 6) (args : List Bytes)
    (ha : ∀ x ∈ args, NoNul x) (opts : List Opt) (prog : List Bytes) (h : SmtpGood ip6 args opts prog) :
    ∃ st, smtpStart ip6 emptydir buf (a :: args) = .ok st ∧ SmtpServes ip6 emptydir opts prog st := by
  obtain ⟨hr, hp, ⟨t, ht⟩, ⟨u, hu⟩, hg⟩ := h
  have hk := (reads_known hr ha).1
  have hopt : options smtpLetters args (smtpInitial emptydir) = _ :=
    (options_means smtp_has (smtp_means emptydir) args ha).1 opts _ hr (fun _ _ => trivial)
  have k1 := (timeout_ok _ (last_noNul hk (c! 't') b!"600" (by decide))).1 t ht
  have k2 := (timeout_ok _ (last_noNul hk (c! 'T') b!"15" (by decide))).1 u hu
  cases e : last (c! 'g') opts with
  | none =>
    refine ⟨⟨smtpConf emptydir opts, prog, t, u, none⟩, ?_, rfl, ht, hu, fun _ => rfl, ?_, rfl, rfl, rfl, rfl, level_ok _⟩
    · simp only [smtpStart, hopt, bind, Res.bind, hp, if_false]
      simp only [smtpConf, k1, k2, e, pure]
    · rw [e]; simp
  | some x =>
    obtain ⟨host, port, g1, g2, g3⟩ := hg x e
    obtain ⟨hi, lo, e1, e2⟩ := (greylist_ok ip6 buf x hb (value_noNul hk (Conf.last_mem e))).1 host port g1 g2 g3
    refine ⟨⟨smtpConf emptydir opts, prog, t, u, some (host ++ List.replicate (256 - host.length) 0, hi, lo)⟩, ?_, rfl, ht, hu, ?_, ?_, rfl, rfl, rfl, rfl, level_ok _⟩
    · simp only [smtpStart, hopt, bind, Res.bind, hp, if_false]
      simp only [smtpConf, k1, k2, e, pure, e2]
    · rw [e]; simp
    · rw [e]; simp only [Option.some.injEq]
      rintro _ rfl
      exact ⟨host, port, hi, lo, g1, g2, e1, rfl⟩

/-- **C77 (tlswrapper-smtp).** Any other command line ends the process with exit code 100. -/
theorem c77_smtp_refuses (ip6 : Bytes → Bool) (emptydir buf : Bytes) (hb : buf.length = 6) (argv : List Bytes)
    (ha : ∀ x ∈ argv, NoNul x) (h : ¬ ∃ a args opts prog, argv = a :: args ∧ SmtpGood ip6 args opts prog) :
    smtpStart ip6 emptydir buf argv = .exit 100 := by
  cases argv with
  | nil => rfl
  | cons a args =>
    have ha : ∀ x ∈ args, NoNul x := fun x hx => ha x (by simp [hx])
    have M := options_means smtp_has (smtp_means emptydir) args ha
    by_cases hr : ∃ opts rest, Reads smtpFlags smtpArgs args opts rest ∧ ∀ x ∈ opts, True
    · obtain ⟨opts, prog, hr, hok⟩ := hr
      have hopt : options smtpLetters args (smtpInitial emptydir) = _ := M.1 opts prog hr hok
      have hk := (reads_known hr ha).1
      simp only [smtpStart, hopt, bind, Res.bind]
      split
      · rfl
      · rename_i hp
        have k1 := timeout_ok _ (last_noNul hk (c! 't') b!"600" (by decide))
        have k2 := timeout_ok _ (last_noNul hk (c! 'T') b!"15" (by decide))
        by_cases ht : ∃ v, Limit ((last (c! 't') opts).getD b!"600") v
        · by_cases hu : ∃ v, Limit ((last (c! 'T') opts).getD b!"15") v
          · have hg : ¬ ∀ x, last (c! 'g') opts = some x → ∃ host port, Parts ip6 x host port ∧ host.length ≤ 255 ∧ port ≠ [] :=
              fun hg => h ⟨a, args, opts, prog, rfl, hr, hp, ht, hu, hg⟩
            obtain ⟨t, ht⟩ := ht
            obtain ⟨u, hu⟩ := hu
            simp only [Classical.not_forall] at hg
            obtain ⟨x, e, hg⟩ := hg
            have := (greylist_ok ip6 buf x hb (value_noNul hk (Conf.last_mem e))).2 hg
            simp only [smtpConf, k1.1 t ht, k2.1 u hu, e, this]
          · obtain ⟨t, ht⟩ := ht
            simp only [smtpConf, k1.1 t ht, k2.2 hu]
        · simp only [smtpConf, k1.2 ht]
    · have hopt : options smtpLetters args (smtpInitial emptydir) = _ := M.2 hr
      simp only [smtpStart, hopt, bind, Res.bind]

example : SmtpGood (fun _ => false) [b!"-c", b!"-gmx:1234", b!"qmail-smtpd"] [.flag (c! 'c'), .arg (c! 'g') b!"mx:1234"] [b!"qmail-smtpd"] :=
  ⟨.word (w := b!"c") (by decide) (by decide) (.flag (by decide) .done)
      (.word (w := b!"gmx:1234") (by decide) (by decide) (.attached (by decide) (by decide)) (.rest (by decide))), by decide,
    limit_num b!"600" 600 (by decide) (by decide +kernel),
    limit_num b!"15" 15 (by decide) (by decide +kernel),
    fun x hx => by
      obtain rfl : b!"mx:1234" = x := Option.some.inj hx
      exact ⟨b!"mx", b!"1234", .hostPort (h := b!"mx") (p := b!"1234") (by decide) (by decide) (by decide)
        ⟨⟨by decide, by decide, by decide⟩, by decide⟩, by decide, by decide⟩⟩

/-- A greylist server without a port is refused, and so is a second word that is no program. -/
example : smtpStart (fun _ => false) b!"/var/empty" [1, 2, 3, 4, 5, 6] [b!"s", b!"-g", b!"mx", b!"prog"] = .exit 100 ∧
    smtpStart (fun _ => false) b!"/var/empty" [1, 2, 3, 4, 5, 6] [b!"s", b!"-g", b!"prog"] = .exit 100 := by
  decide +kernel

end Cmd
