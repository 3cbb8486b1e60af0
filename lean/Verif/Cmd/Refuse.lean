import Verif.Cmd.Props
import Verif.Conf.Refuse
/-
C117: what tlswrapper-tcp and tlswrapper-smtp say when they refuse a command line (main_tlswrapper_tcp.c:116-192,
244-297; main_tlswrapper_smtp.c:145-181, 848-908).
-/
namespace Cmd
open Conf (Res Said Msg)
open Conf.Spec (Opt values last switch Limit verbosity fatal heard Msg.text)
open Spec HostPort.Spec

/-! ### Model -/

/-- `log_f` at a level of the log (log.h:93-97); the first NULL ends the text (log.c:495), so `none` and what follows is
not part of it. -/
def log_f (level : Int) (errno : Int) (parts : List (Option Bytes)) : List Msg :=
  if level < 1 then [] else [⟨1, (parts.takeWhile Option.isSome).filterMap id, errno⟩]

/-- `log_u`, log.h:47-51. -/
def log_u (level : Int) (errno : Int) (text : Bytes) : List Msg := if level < 0 then [] else [⟨0, [text], errno⟩]

/-- The records of a program: those of an option's function before it ends the process, and the usage
(main_tlswrapper_tcp.c:118-176, main_tlswrapper_smtp.c:149-152). -/
structure Voice (σ : Type) where
  says : Byte → Bytes → σ → List Msg
  usage : σ → List Msg

/-- The call of an option's function (main_tlswrapper_tcp.c:256-281, main_tlswrapper_smtp.c:860-888). -/
def called {σ} (r : Res σ) (msgs : List Msg) (args : List Bytes) : Said (σ × List Bytes) :=
  match r with
  | .ok o => .ok (o, args)
  | .exit s => .stop s msgs
  | .ub => .ub

/-- `cluster` with the records (main_tlswrapper_tcp.c:251-283, main_tlswrapper_smtp.c:855-890). -/
def clusterS {σ} (L : Letters σ) (V : Voice σ) : Bytes → List Bytes → σ → Said (σ × List Bytes)
  | [], args, o => .ok (o, args)
  | c :: w, args, o =>
    match L.flag c o with
    | some o => clusterS L V w args o
    | none =>
      match L.arg c with
      | none => .stop 100 (V.usage o)
      | some f =>
        if w ≠ [] then called (f w o) (V.says c w o) args
        else match args with
          | v :: args => called (f v o) (V.says c v o) args
          | [] => .stop 100 (V.usage o)

theorem clusterS_quiet {σ} (L : Letters σ) (V : Voice σ) (w : Bytes) (args : List Bytes) (o : σ) :
    (clusterS L V w args o).quiet = cluster L w args o := by
  induction w generalizing o with
  | nil => rfl
  | cons c w ih =>
    rw [clusterS, cluster]
    cases L.flag c o with
    | some o => exact ih o
    | none =>
      cases L.arg c with
      | none => rfl
      | some f =>
        by_cases hw : w = []
        · simp only [hw, ne_eq, not_true_eq_false, if_false]
          cases args with
          | nil => rfl
          | cons v args => cases h : f v o <;> simp [called, Said.quiet, bind, Res.bind, h, pure]
        · simp only [hw, ne_eq, not_false_eq_true, if_true]
          cases h : f w o <;> simp [called, Said.quiet, bind, Res.bind, h, pure]

/-- `options` with the records (main_tlswrapper_tcp.c:245-284, main_tlswrapper_smtp.c:849-891). -/
def optionsS {σ} (L : Letters σ) (V : Voice σ) (args : List Bytes) (o : σ) : Said (σ × List Bytes) :=
  match args with
  | [] => .ok (o, [])
  | a :: args =>
    if a.head? ≠ some (c! '-') then .ok (o, a :: args)
    else if a = b!"-" then .ok (o, args)
    else if a = b!"--" then .ok (o, args)
    else
      match h : clusterS L V (a.drop 1) args o with
      | .ok (o, args) => optionsS L V args o
      | .stop s m => .stop s m
      | .ub => .ub
termination_by args.length
decreasing_by
  have h := congrArg Said.quiet h
  rw [clusterS_quiet] at h
  have := cluster_length _ _ _ _ _ _ h
  simp; omega

/-- main_tlswrapper_tcp.c:186-194, main_tlswrapper_smtp.c:173-181. EINVAL is 22 (parsenum.c:131). -/
def timeoutS (level : Int) (x : Bytes) : Said Int :=
  match timeout_parse x with
  | .ok v => .ok v
  | .exit s => .stop s (log_f level 22 [some b!"unable to parse timeout from the string '", some x,
      some b!"', timeout must be a number in the range <1,86400>"])
  | .ub => .ub

/-- main_tlswrapper_tcp.c:118-121, 136-176; `e` is errno when the options are read. -/
def tcpVoice (e : Int) : Voice Tcp where
  says c x o :=
    if c = c! 'p' then
      log_f o.log_level e [some b!"unable to parse incoming proxy-protocol version from the string '", some x, some b!"'"] ++
      log_f o.log_level e [some b!"available: 1"]
    else if c = c! 'P' then
      log_f o.log_level e [some b!"unable to parse outgoing proxy-protocol version from the string '", some x, some b!"'"] ++
      log_f o.log_level e [some b!"available: 1"]
    else []
  usage o := log_u o.log_level e b!"tlswrapper-tcp [options] host port"

/-- `tcpStart` with the records (main_tlswrapper_tcp.c:244-297; errno 22 from parseport.c:84). -/
def tcpStartS (e : Int) (emptydir : Bytes) : List Bytes → Said TcpStarted
  | [] => .stop 100 ((tcpVoice e).usage (tcpInitial emptydir))
  | _ :: args =>
    match optionsS tcpLetters (tcpVoice e) args (tcpInitial emptydir) with
    | .ub => .ub
    | .stop s m => .stop s m
    | .ok (o, rest) =>
      match rest with
      | [] => .stop 100 ((tcpVoice e).usage o)
      | host :: rest =>
        match Num.parseport (rest.head?.map (· ++ [0])) with
        | .ub => .ub
        | .ok none => .stop 100 (log_f o.log_level 22 [some b!"unable to parse TCP port (a number 0 - 65535) from the string '",
            rest.head?, some b!"'"])
        | .ok (some port) =>
          match timeoutS o.log_level o.timeoutstr with
          | .ub => .ub
          | .stop s m => .stop s m
          | .ok timeout =>
            match timeoutS o.log_level o.connecttimeoutstr with
            | .ub => .ub
            | .stop s m => .stop s m
            | .ok connecttimeout => .ok ⟨o, host, port, timeout, connecttimeout⟩

/-- main_tlswrapper_smtp.c:149-152; no option of tlswrapper-smtp is refused when it is read. -/
def smtpVoice (e : Int) : Voice Smtp where
  says _ _ _ := []
  usage o := log_u o.log_level e b!"tlswrapper-smtp [options] child"

/-- `smtpStart` with the records (main_tlswrapper_smtp.c:848-908; errno 22 from parsehostport.c:206, parseport.c:84). -/
def smtpStartS (e : Int) (ip6 : Bytes → Bool) (emptydir port : Bytes) : List Bytes → Said SmtpStarted
  | [] => .stop 100 ((smtpVoice e).usage (smtpInitial emptydir))
  | _ :: args =>
    match optionsS smtpLetters (smtpVoice e) args (smtpInitial emptydir) with
    | .ub => .ub
    | .stop s m => .stop s m
    | .ok (o, prog) =>
      if prog = [] then .stop 100 ((smtpVoice e).usage o)
      else
        match timeoutS o.log_level o.timeoutstr with
        | .ub => .ub
        | .stop s m => .stop s m
        | .ok timeout =>
          match timeoutS o.log_level o.crwtimeoutstr with
          | .ub => .ub
          | .stop s m => .stop s m
          | .ok crwtimeout =>
            match o.greylisthostport with
            | none => .ok ⟨o, prog, timeout, crwtimeout, none⟩
            | some x =>
              match greylistParse ip6 (List.replicate 256 0) port x with
              | .ub => .ub
              | .exit s => .stop s (log_f o.log_level 22 [some b!"unable to parse greylist host:port from the string: '", some x, some b!"'"])
              | .ok g => .ok ⟨o, prog, timeout, crwtimeout, some g⟩

/-! ### Specification -/

namespace Spec

/-- `Begins F A args opts`: the command line begins with the options `opts`, up to the end of a word. -/
inductive Begins (F A : Bytes) : List Bytes → List Opt → Prop where
  | nil {args} : Begins F A args []
  | word {w args opts args' opts'} : w ≠ [] → w ≠ b!"-" → Word F A w args opts args' → Begins F A args' opts' →
      Begins F A ((c! '-' :: w) :: args) (opts ++ opts')

/-- The complaint about a time limit. -/
def limitText (v : Bytes) : Msg :=
  fatal 22 [b!"unable to parse timeout from the string '", v, b!"', timeout must be a number in the range <1,86400>"]

/-- The options with a protocol version have one of the two. -/
def TcpFits (opts : List Opt) : Prop :=
  (∀ v ∈ values (c! 'p') opts, v = b!"0" ∨ v = b!"1") ∧ (∀ v ∈ values (c! 'P') opts, v = b!"0" ∨ v = b!"1")

def tcpUsage (e : Int) : Msg := ⟨0, [b!"tlswrapper-tcp [options] host port"], e⟩
def smtpUsage (e : Int) : Msg := ⟨0, [b!"tlswrapper-smtp [options] child"], e⟩

/-- Why tlswrapper-tcp refuses a command line, with what is said about it. -/
inductive TcpWhy (e : Int) (args : List Bytes) : List Msg → Prop where
  /-- an unknown option, or one without its value, and nothing wrong before it -/
  | unreadable : (¬ ∃ opts rest, Reads tcpFlags tcpArgs args opts rest) →
      (∀ opts, Begins tcpFlags tcpArgs args opts → TcpFits opts) → TcpWhy e args [tcpUsage e]
  | noHost {opts} : Reads tcpFlags tcpArgs args opts [] → TcpFits opts → TcpWhy e args [tcpUsage e]
  /-- the first protocol version that is none -/
  | incoming {opts v} : Begins tcpFlags tcpArgs args (opts ++ [.arg (c! 'p') v]) → TcpFits opts → v ≠ b!"0" → v ≠ b!"1" →
      TcpWhy e args (heard opts [fatal e [b!"unable to parse incoming proxy-protocol version from the string '", v, b!"'"],
        fatal e [b!"available: 1"]])
  | outgoing {opts v} : Begins tcpFlags tcpArgs args (opts ++ [.arg (c! 'P') v]) → TcpFits opts → v ≠ b!"0" → v ≠ b!"1" →
      TcpWhy e args (heard opts [fatal e [b!"unable to parse outgoing proxy-protocol version from the string '", v, b!"'"],
        fatal e [b!"available: 1"]])
  /-- a host alone: the text breaks off where the port would be -/
  | noPort {opts host} : Reads tcpFlags tcpArgs args opts [host] → TcpFits opts →
      TcpWhy e args (heard opts [fatal 22 [b!"unable to parse TCP port (a number 0 - 65535) from the string '"]])
  | port {opts host port more} : Reads tcpFlags tcpArgs args opts (host :: port :: more) → TcpFits opts → ¬ PortText port →
      TcpWhy e args (heard opts [fatal 22 [b!"unable to parse TCP port (a number 0 - 65535) from the string '", port, b!"'"]])
  | limit {opts host port more v} : Reads tcpFlags tcpArgs args opts (host :: port :: more) → TcpFits opts → PortText port →
      (v = (last (c! 't') opts).getD b!"3600" ∨ v = (last (c! 'T') opts).getD b!"10") → (¬ ∃ n, Limit v n) →
      TcpWhy e args (heard opts [limitText v])

/-- Why tlswrapper-smtp refuses a command line, with what is said about it. -/
inductive SmtpWhy (e : Int) (ip6 : Bytes → Bool) (args : List Bytes) : List Msg → Prop where
  | unreadable : (¬ ∃ opts rest, Reads smtpFlags smtpArgs args opts rest) → SmtpWhy e ip6 args [smtpUsage e]
  | noProg {opts} : Reads smtpFlags smtpArgs args opts [] → SmtpWhy e ip6 args [smtpUsage e]
  | limit {opts prog v} : Reads smtpFlags smtpArgs args opts prog → prog ≠ [] →
      (v = (last (c! 't') opts).getD b!"600" ∨ v = (last (c! 'T') opts).getD b!"15") → (¬ ∃ n, Limit v n) →
      SmtpWhy e ip6 args (heard opts [limitText v])
  | greylist {opts prog x} : Reads smtpFlags smtpArgs args opts prog → prog ≠ [] → last (c! 'g') opts = some x →
      (¬ ∃ host port, Parts ip6 x host port ∧ host.length ≤ 255 ∧ port ≠ []) →
      SmtpWhy e ip6 args (heard opts [fatal 22 [b!"unable to parse greylist host:port from the string: '", x, b!"'"]])

end Spec

/-! ### The option loop -/

variable {σ : Type} {L : Letters σ} {V : Voice σ} {F A : Bytes}

theorem optionsS_cons (L : Letters σ) (V : Voice σ) (w : Bytes) (args : List Bytes) (o : σ) (h1 : w ≠ []) (h2 : w ≠ b!"-") :
    optionsS L V ((c! '-' :: w) :: args) o = match clusterS L V w args o with
      | .ok (o, args) => optionsS L V args o
      | .stop s m => .stop s m
      | .ub => .ub := by
  rw [optionsS]
  have e1 : ¬ ((c! '-' :: w).head? ≠ some (c! '-')) := by simp
  have e2 : (c! '-' :: w) ≠ b!"-" := by simpa using h1
  have e3 : (c! '-' :: w) ≠ b!"--" := by simpa using h2
  rw [if_neg e1, if_neg e2, if_neg e3]
  split <;> rename_i h <;> (change clusterS L V w args o = _ at h; rw [h])

theorem optionsS_quiet (L : Letters σ) (V : Voice σ) (args : List Bytes) (o : σ) : (optionsS L V args o).quiet = options L args o := by
  induction args using Conf.args_cases generalizing o with
  | hnil => simp [optionsS, options, Said.quiet]
  | hprog a args h => rw [optionsS, options, if_pos h, if_pos h]; rfl
  | hdash => simp [optionsS, options, Said.quiet]
  | hdashes => simp [optionsS, options, Said.quiet]
  | hword w args h1 h2 ih =>
    rw [optionsS_cons L V w args o h1 h2, options_cons L w args o h1 h2, ← clusterS_quiet L V]
    cases h : clusterS L V w args o with
    | ok p =>
      obtain ⟨o', args'⟩ := p
      have h := congrArg Said.quiet h
      rw [clusterS_quiet] at h
      exact ih args' (cluster_length _ _ _ _ _ _ h) o'
    | stop s m => rfl
    | ub => rfl

theorem word_unique (H : ∀ c ∈ A, c ∉ F) {w : Bytes} {args : List Bytes} {o1 o2 : List Opt} {a1 a2 : List Bytes} (h1 : Word F A w args o1 a1)
    (h2 : Word F A w args o2 a2) : o1 = o2 ∧ a1 = a2 := by
  induction h1 generalizing o2 a2 with
  | done => cases h2; exact ⟨rfl, rfl⟩
  | flag hc _ ih =>
    cases h2 with
    | flag _ h => obtain ⟨rfl, rfl⟩ := ih h; exact ⟨rfl, rfl⟩
    | attached hd _ => exact absurd hc (H _ hd)
    | separate hd => exact absurd hc (H _ hd)
  | attached hc hw =>
    cases h2 with
    | flag hd _ => exact absurd hd (H _ hc)
    | attached _ _ => exact ⟨rfl, rfl⟩
    | separate _ => exact absurd rfl hw
  | separate hc =>
    cases h2 with
    | flag hd _ => exact absurd hd (H _ hc)
    | attached _ hw => exact absurd rfl hw
    | separate _ => exact ⟨rfl, rfl⟩

/-- A word that is accepted. -/
theorem cluster_ok (H : Has L F A) {conf : List Opt → σ} {Ok : Opt → Prop} (M : Means L F A conf Ok) {w : Bytes} {args : List Bytes}
    (hw : NoNul w) (ha : ∀ a ∈ args, NoNul a) {l : List Opt} {o : σ} {args' : List Bytes}
    (h : cluster L w args (conf l) = .ok (o, args')) :
    ∃ opts, Word F A w args opts args' ∧ (∀ x ∈ opts, Ok x) ∧ o = conf (l ++ opts) := by
  by_cases hx : ∃ opts args', Word F A w args opts args'
  · obtain ⟨opts, args1, hx⟩ := hx
    have hk := (word_known hx hw ha).1
    rw [cluster_word H hx] at h
    by_cases hok : ∀ x ∈ opts, Ok x
    · rw [(fold_means M opts hk l).1 hok] at h
      cases h
      exact ⟨opts, hx, hok, rfl⟩
    · rw [(fold_means M opts hk l).2 hok] at h
      cases h
  · rw [cluster_bad H hx] at h; cases h

/-- A word that stops the program: unreadable, or its last option is refused. -/
theorem clusterS_stop (H : Has L F A) {conf : List Opt → σ} {Ok : Opt → Prop} (M : Means L F A conf Ok) (w : Bytes) (args : List Bytes)
    (hw : NoNul w) (ha : ∀ a ∈ args, NoNul a) (l : List Opt) (s : Nat) (m : List Msg)
    (h : clusterS L V w args (conf l) = .stop s m) :
    ((¬ ∃ opts args', Word F A w args opts args') ∧ s = 100 ∧ ∃ l', m = V.usage (conf l')) ∨
    ∃ pre c v args', Word F A w args (pre ++ [.arg c v]) args' ∧ (∀ x ∈ pre, Ok x) ∧ ¬ Ok (.arg c v) ∧ s = 100 ∧
      m = V.says c v (conf (l ++ pre)) := by
  induction w generalizing l with
  | nil => simp [clusterS] at h
  | cons c w ih =>
    have hw' : NoNul w := fun b hb => hw b (by simp [hb])
    rw [clusterS] at h
    cases e : L.flag c (conf l) with
    | some o1 =>
      rw [e] at h
      have hc := H.flag_mem e
      have hok : Ok (.flag c) := Classical.byContradiction fun g => by
        have := M.bad (conf l) (.flag c) hc g
        simp [step, e] at this
      have hs := M.ok l (.flag c) hc hok
      simp only [step, e, Res.ok.injEq] at hs
      subst hs
      rcases ih hw' (l ++ [.flag c]) h with ⟨g1, g2⟩ | ⟨pre, c', v, args', g1, g2, g3, g4, g5⟩
      · left
        refine ⟨?_, g2⟩
        rintro ⟨opts, args', hx⟩
        cases hx with
        | flag _ hx => exact g1 ⟨_, _, hx⟩
        | attached hd _ => exact H.disjoint _ hd hc
        | separate hd => exact H.disjoint _ hd hc
      · right
        refine ⟨.flag c :: pre, c', v, args', .flag hc g1, ?_, g3, g4, by simpa using g5⟩
        intro x hx
        rcases List.mem_cons.mp hx with rfl | hx
        · exact hok
        · exact g2 x hx
    | none =>
      rw [e] at h
      have hc : c ∉ F := fun hc => by obtain ⟨o', e'⟩ := H.flag_some (conf l) hc; rw [e'] at e; cases e
      cases e2 : L.arg c with
      | none =>
        simp only [e2, Said.stop.injEq] at h
        left
        have hn : c ∉ A := fun hc => by obtain ⟨f, e'⟩ := H.arg_some hc; rw [e'] at e2; cases e2
        refine ⟨?_, h.1.symm, l, h.2.symm⟩
        rintro ⟨opts, args', hx⟩
        cases hx with
        | flag hf _ => exact hc hf
        | attached hd _ => exact hn hd
        | separate hd => exact hn hd
      | some f =>
        have hA := H.arg_mem e2
        simp only [e2] at h
        have fin (v : Bytes) (hv : NoNul v) (args' : List Bytes) (hx : Word F A (c :: w) args [.arg c v] args')
            (h : called (f v (conf l)) (V.says c v (conf l)) args' = .stop s m) :
            ∃ pre c' v' args', Word F A (c :: w) args (pre ++ [.arg c' v']) args' ∧ (∀ x ∈ pre, Ok x) ∧ ¬ Ok (.arg c' v') ∧ s = 100 ∧
              m = V.says c' v' (conf (l ++ pre)) := by
          have hk : Known F A (.arg c v) := ⟨hA, hv⟩
          by_cases hok : Ok (.arg c v)
          · have hs := M.ok l _ hk hok
            simp only [step, e2] at hs
            rw [hs] at h
            cases h
          · have hs := M.bad (conf l) _ hk hok
            simp only [step, e2] at hs
            rw [hs] at h
            simp only [called, Said.stop.injEq] at h
            exact ⟨[], c, v, args', hx, by simp, hok, h.1.symm, by rw [List.append_nil]; exact h.2.symm⟩
        by_cases hne : w = []
        · subst hne
          simp only [ne_eq, not_true_eq_false, if_false] at h
          cases args with
          | nil =>
            simp only [Said.stop.injEq] at h
            left
            refine ⟨?_, h.1.symm, l, h.2.symm⟩
            rintro ⟨opts, args', hx⟩
            cases hx with
            | flag hf _ => exact hc hf
            | attached _ hne => exact hne rfl
          | cons v args =>
            right
            exact fin v (ha v (by simp)) args (.separate hA) h
        · simp only [hne, ne_eq, not_false_eq_true, if_true] at h
          right
          exact fin w hw' args (.attached hA hne) h

/-- A command line whose options stop the program. -/
theorem optionsS_stop (H : Has L F A) {conf : List Opt → σ} {Ok : Opt → Prop} (M : Means L F A conf Ok) (args : List Bytes)
    (ha : ∀ a ∈ args, NoNul a) (l : List Opt) (s : Nat) (m : List Msg) (h : optionsS L V args (conf l) = .stop s m) :
    ((¬ ∃ opts rest, Reads F A args opts rest) ∧ (∀ opts, Begins F A args opts → ∀ x ∈ opts, Ok x) ∧ s = 100 ∧
      ∃ l', m = V.usage (conf l')) ∨
    ∃ pre c v, Begins F A args (pre ++ [.arg c v]) ∧ (∀ x ∈ pre, Ok x) ∧ ¬ Ok (.arg c v) ∧ s = 100 ∧ m = V.says c v (conf (l ++ pre)) := by
  induction args using Conf.args_cases generalizing l with
  | hnil => simp [optionsS] at h
  | hprog a args g => rw [optionsS, if_pos g] at h; cases h
  | hdash => simp [optionsS] at h
  | hdashes => simp [optionsS] at h
  | hword w args h1 h2 ih =>
    have hw : NoNul w := fun b hb => ha _ List.mem_cons_self b (List.mem_cons_of_mem _ hb)
    have ha' : ∀ a ∈ args, NoNul a := fun a h => ha a (by simp [h])
    rw [optionsS_cons L V w args _ h1 h2] at h
    cases e : clusterS L V w args (conf l) with
    | ub => simp [e] at h
    | stop s' m' =>
      simp only [e, Said.stop.injEq] at h
      obtain ⟨rfl, rfl⟩ := h
      rcases clusterS_stop H M w args hw ha' l _ _ e with ⟨g1, g2⟩ | ⟨pre, c, v, args', g1, g2⟩
      · left
        refine ⟨?_, fun opts hb => ?_, g2⟩
        · rintro ⟨opts, rest, hr⟩
          cases hr with
          | rest hp => simp at hp
          | dash => exact h1 rfl
          | dashes => exact h2 rfl
          | word _ _ hw _ => exact g1 ⟨_, _, hw⟩
        · cases hb with
          | nil => simp
          | word _ _ hw _ => exact absurd ⟨_, _, hw⟩ g1
      · right
        refine ⟨pre, c, v, ?_, g2⟩
        have := Begins.word (opts' := []) h1 h2 g1 .nil
        simpa using this
    | ok p =>
      obtain ⟨o1, args1⟩ := p
      simp only [e] at h
      have e := congrArg Said.quiet e
      rw [clusterS_quiet] at e
      obtain ⟨opts1, hx, hok, rfl⟩ := cluster_ok H M hw ha' (show cluster L w args (conf l) = .ok (o1, args1) from e)
      have ha1 := (word_known hx hw ha').2.1
      rcases ih args1 (cluster_length _ _ _ _ _ _ e) ha1 (l ++ opts1) h with ⟨g1, g0, g2⟩ | ⟨pre, c, v, g1, g2, g3, g4, g5⟩
      · left
        refine ⟨?_, fun opts hb => ?_, g2⟩
        · rintro ⟨opts, rest, hr⟩
          cases hr with
          | rest hp => simp at hp
          | dash => exact h1 rfl
          | dashes => exact h2 rfl
          | word _ _ hx' hr' =>
            obtain ⟨-, rfl⟩ := word_unique H.disjoint hx hx'
            exact g1 ⟨_, _, hr'⟩
        · cases hb with
          | nil => simp
          | word _ _ hx' hb' =>
            obtain ⟨rfl, rfl⟩ := word_unique H.disjoint hx hx'
            intro y hy
            rcases List.mem_append.mp hy with hy | hy
            · exact hok y hy
            · exact g0 _ hb' y hy
      · right
        refine ⟨opts1 ++ pre, c, v, ?_, ?_, g3, g4, by rw [g5, List.append_assoc]⟩
        · rw [List.append_assoc]; exact .word h1 h2 hx g1
        · intro y hy
          rcases List.mem_append.mp hy with hy | hy
          · exact hok y hy
          · exact g2 y hy

/-- A command line whose options are accepted. -/
theorem optionsS_ok (H : Has L F A) {conf : List Opt → σ} {Ok : Opt → Prop} (M : Means L F A conf Ok) (args : List Bytes)
    (ha : ∀ a ∈ args, NoNul a) (o : σ) (rest : List Bytes) (h : optionsS L V args (conf []) = .ok (o, rest)) :
    ∃ opts, Reads F A args opts rest ∧ (∀ x ∈ opts, Ok x) ∧ o = conf opts := by
  have h := congrArg Said.quiet h
  rw [optionsS_quiet] at h
  have G := options_means H M args ha
  by_cases hr : ∃ opts rest, Reads F A args opts rest ∧ ∀ x ∈ opts, Ok x
  · obtain ⟨opts, rest', hr, hok⟩ := hr
    rw [G.1 opts rest' hr hok] at h
    cases h
    exact ⟨opts, hr, hok, rfl⟩
  · rw [G.2 hr] at h
    cases h

/-! ### The records -/

theorem log_f_text (l : List Opt) (e : Int) (ps : List Bytes) :
    (log_f (Log.set_level (verbosity l)) e (ps.map some)).map Msg.text = heard l [fatal e ps] := by
  have : ((ps.map some).takeWhile Option.isSome).filterMap id = ps := by
    induction ps with
    | nil => rfl
    | cons x ps ih => simpa using ih
  unfold log_f heard
  rw [this, level_ok]
  by_cases h : verbosity l = 0
  · rw [if_pos h, if_pos (by omega)]; rfl
  · rw [if_neg h, if_neg (by omega)]; rfl

theorem two (l : List Opt) (e : Int) (a b c d : Bytes) :
    (log_f (Log.set_level (verbosity l)) e [some a, some b, some c] ++ log_f (Log.set_level (verbosity l)) e [some d]).map Msg.text =
      heard l [fatal e [a, b, c], fatal e [d]] := by
  rw [List.map_append, show [some a, some b, some c] = [a, b, c].map some from rfl, show [some d] = [d].map some from rfl, log_f_text,
    log_f_text, ← Conf.heard_append]
  rfl

theorem log_u_level (l : List Opt) (e : Int) (t : Bytes) : log_u (Log.set_level (verbosity l)) e t = [⟨0, [t], e⟩] := by
  unfold log_u
  rw [level_ok, if_neg (by omega)]

theorem timeoutS_ok (l : List Opt) (x : Bytes) (hx : NoNul x) :
    (∀ v, Limit x v → timeoutS (Log.set_level (verbosity l)) x = .ok v) ∧
    ((¬ ∃ v, Limit x v) → ∃ m, timeoutS (Log.set_level (verbosity l)) x = .stop 100 m ∧ m.map Msg.text = heard l [limitText x]) := by
  constructor
  · intro v hv
    unfold timeoutS
    rw [(timeout_ok x hx).1 v hv]
  · intro hv
    unfold timeoutS
    rw [(timeout_ok x hx).2 hv]
    exact ⟨_, rfl, log_f_text l 22 [_, _, _]⟩

/-! ### tlswrapper-tcp -/

/-- The records change nothing: without them this is the program of C77. -/
theorem c117_tcp_same (e : Int) (emptydir : Bytes) (argv : List Bytes) : (tcpStartS e emptydir argv).quiet = tcpStart emptydir argv := by
  cases argv with
  | nil => rfl
  | cons a args =>
    simp only [tcpStartS, tcpStart]
    rw [← optionsS_quiet tcpLetters (tcpVoice e)]
    cases optionsS tcpLetters (tcpVoice e) args (tcpInitial emptydir) with
    | ub => rfl
    | stop s m => rfl
    | ok p =>
      obtain ⟨o, rest⟩ := p
      cases rest with
      | nil => rfl
      | cons host rest =>
        simp only [Said.quiet, bind, Res.bind, Res.lift]
        cases Num.parseport (rest.head?.map (· ++ [0])) with
        | ub => rfl
        | ok r =>
          cases r with
          | none => rfl
          | some port =>
            simp only [timeoutS]
            cases timeout_parse o.timeoutstr with
            | ub => rfl
            | exit s => rfl
            | ok t =>
              simp only
              cases timeout_parse o.connecttimeoutstr <;> rfl

/-- **C117.** A command line tlswrapper-tcp refuses ends it with 100, and what is said is the reason. -/
theorem c117_tcp_why (e : Int) (emptydir a : Bytes) (args : List Bytes) (ha : ∀ x ∈ args, NoNul x) (s : Nat) (m : List Msg)
    (h : tcpStartS e emptydir (a :: args) = .stop s m) : s = 100 ∧ TcpWhy e args (m.map Msg.text) := by
  unfold tcpStartS at h
  rw [show tcpInitial emptydir = tcpConf emptydir [] from rfl] at h
  have um (l : List Opt) : ((tcpVoice e).usage (tcpConf emptydir l)).map Msg.text = [tcpUsage e] := by
    show (log_u (Log.set_level (verbosity l)) e _).map Msg.text = _
    rw [log_u_level]; rfl
  cases eo : optionsS tcpLetters (tcpVoice e) args (tcpConf emptydir []) with
  | ub => simp [eo] at h
  | stop s' m' =>
    simp only [eo, Said.stop.injEq] at h
    obtain ⟨rfl, rfl⟩ := h
    rcases optionsS_stop tcp_has (tcp_means emptydir) args ha [] _ _ eo with ⟨g1, g0, g2, l', rfl⟩ | ⟨pre, c, v, g1, g2, g3, g4, g5⟩
    · refine ⟨g2, ?_⟩
      rw [um]
      exact .unreadable g1 fun opts hb => (tcpOk_iff opts).mp (g0 opts hb)
    · refine ⟨g4, ?_⟩
      have hf := (tcpOk_iff pre).mp g2
      simp only [TcpOk, Classical.not_imp, not_or] at g3
      obtain ⟨rfl | rfl, h0, h1⟩ := g3
      · have t := TcpWhy.incoming (e := e) g1 hf h0 h1
        rw [← two] at t
        rw [g5]
        exact t
      · have t := TcpWhy.outgoing (e := e) g1 hf h0 h1
        rw [← two] at t
        rw [g5]
        exact t
  | ok p =>
    obtain ⟨o, rest⟩ := p
    obtain ⟨opts, hr, hok, rfl⟩ := optionsS_ok tcp_has (tcp_means emptydir) args ha o rest eo
    have hf := (tcpOk_iff opts).mp hok
    obtain ⟨hk, hrest⟩ := reads_known hr ha
    simp only [eo] at h
    cases rest with
    | nil =>
      simp only [Said.stop.injEq] at h
      obtain ⟨rfl, rfl⟩ := h
      exact ⟨rfl, by rw [um]; exact .noHost hr hf⟩
    | cons host rest =>
      cases rest with
      | nil =>
        have : Num.parseport none = .ok none := rfl
        simp only [List.head?_nil, Option.map_none, this, Said.stop.injEq] at h
        obtain ⟨rfl, rfl⟩ := h
        refine ⟨rfl, ?_⟩
        have : (log_f (tcpConf emptydir opts).log_level 22 [some b!"unable to parse TCP port (a number 0 - 65535) from the string '",
            none, some b!"'"]).map Msg.text = heard opts [fatal 22 [b!"unable to parse TCP port (a number 0 - 65535) from the string '"]] :=
          log_f_text opts 22 [_]
        rw [this]
        exact .noPort hr hf
      | cons port more =>
        simp only [List.head?_cons, Option.map_some] at h
        by_cases hp : PortText port
        · obtain ⟨p1, p2, e1, e2⟩ := (port_ok port (hrest _ (by simp))).1 hp
          simp only [e1] at h
          have k1 := timeoutS_ok opts _ (last_noNul hk (c! 't') b!"3600" (by decide))
          have k2 := timeoutS_ok opts _ (last_noNul hk (c! 'T') b!"10" (by decide))
          simp only [tcpConf] at h
          by_cases ht : ∃ v, Limit ((last (c! 't') opts).getD b!"3600") v
          · obtain ⟨t, ht⟩ := ht
            rw [k1.1 t ht] at h
            by_cases hu : ∃ v, Limit ((last (c! 'T') opts).getD b!"10") v
            · obtain ⟨u, hu⟩ := hu
              simp only [k2.1 u hu] at h
              cases h
            · obtain ⟨m', e3, e4⟩ := k2.2 hu
              simp only [e3, Said.stop.injEq] at h
              obtain ⟨rfl, rfl⟩ := h
              exact ⟨rfl, by rw [e4]; exact .limit hr hf hp (.inr rfl) hu⟩
          · obtain ⟨m', e3, e4⟩ := k1.2 ht
            simp only [e3, Said.stop.injEq] at h
            obtain ⟨rfl, rfl⟩ := h
            exact ⟨rfl, by rw [e4]; exact .limit hr hf hp (.inl rfl) ht⟩
        · simp only [(port_ok port (hrest _ (by simp))).2 hp, Said.stop.injEq] at h
          obtain ⟨rfl, rfl⟩ := h
          refine ⟨rfl, ?_⟩
          have : (log_f (tcpConf emptydir opts).log_level 22 [some b!"unable to parse TCP port (a number 0 - 65535) from the string '",
              some port, some b!"'"]).map Msg.text = heard opts [fatal 22 [b!"unable to parse TCP port (a number 0 - 65535) from the string '",
                port, b!"'"]] := log_f_text opts 22 [_, _, _]
          rw [this]
          exact .port hr hf hp

/-! ### tlswrapper-smtp -/

/-- The records change nothing: without them this is the program of C77. -/
theorem c117_smtp_same (e : Int) (ip6 : Bytes → Bool) (emptydir buf : Bytes) (argv : List Bytes) :
    (smtpStartS e ip6 emptydir buf argv).quiet = smtpStart ip6 emptydir buf argv := by
  cases argv with
  | nil => rfl
  | cons a args =>
    simp only [smtpStartS, smtpStart]
    rw [← optionsS_quiet smtpLetters (smtpVoice e)]
    cases optionsS smtpLetters (smtpVoice e) args (smtpInitial emptydir) with
    | ub => rfl
    | stop s m => rfl
    | ok p =>
      obtain ⟨o, prog⟩ := p
      simp only [Said.quiet, bind, Res.bind]
      by_cases hp : prog = []
      · rw [if_pos hp, if_pos hp]
      · rw [if_neg hp, if_neg hp]
        simp only [timeoutS]
        cases timeout_parse o.timeoutstr with
        | ub => rfl
        | exit s => rfl
        | ok t =>
          simp only
          cases timeout_parse o.crwtimeoutstr with
          | ub => rfl
          | exit s => rfl
          | ok u =>
            simp only
            cases o.greylisthostport with
            | none => rfl
            | some x =>
              simp only
              cases greylistParse ip6 (List.replicate 256 0) buf x <;> rfl

/-- **C117.** A command line tlswrapper-smtp refuses ends it with 100, and what is said is the reason. -/
theorem c117_smtp_why (e : Int) (ip6 : Bytes → Bool) (emptydir buf a : Bytes) (hb : buf.length = 6) (args : List Bytes)
    (ha : ∀ x ∈ args, NoNul x) (s : Nat) (m : List Msg) (h : smtpStartS e ip6 emptydir buf (a :: args) = .stop s m) :
    s = 100 ∧ SmtpWhy e ip6 args (m.map Msg.text) := by
  unfold smtpStartS at h
  rw [show smtpInitial emptydir = smtpConf emptydir [] from rfl] at h
  have um (l : List Opt) : ((smtpVoice e).usage (smtpConf emptydir l)).map Msg.text = [smtpUsage e] := by
    show (log_u (Log.set_level (verbosity l)) e _).map Msg.text = _
    rw [log_u_level]; rfl
  cases eo : optionsS smtpLetters (smtpVoice e) args (smtpConf emptydir []) with
  | ub => simp [eo] at h
  | stop s' m' =>
    simp only [eo, Said.stop.injEq] at h
    obtain ⟨rfl, rfl⟩ := h
    rcases optionsS_stop smtp_has (smtp_means emptydir) args ha [] _ _ eo with ⟨g1, g0, g2, l', rfl⟩ | ⟨pre, c, v, g1, g2, g3, g4, g5⟩
    · exact ⟨g2, by rw [um]; exact .unreadable g1⟩
    · exact absurd trivial g3
  | ok p =>
    obtain ⟨o, prog⟩ := p
    obtain ⟨opts, hr, hok, rfl⟩ := optionsS_ok smtp_has (smtp_means emptydir) args ha o prog eo
    have hk := (reads_known hr ha).1
    simp only [eo] at h
    by_cases hp : prog = []
    · rw [if_pos hp] at h
      cases h
      subst hp
      exact ⟨rfl, by rw [um]; exact .noProg hr⟩
    · rw [if_neg hp] at h
      have k1 := timeoutS_ok opts _ (last_noNul hk (c! 't') b!"600" (by decide))
      have k2 := timeoutS_ok opts _ (last_noNul hk (c! 'T') b!"15" (by decide))
      simp only [smtpConf] at h
      by_cases ht : ∃ v, Limit ((last (c! 't') opts).getD b!"600") v
      · obtain ⟨t, ht⟩ := ht
        rw [k1.1 t ht] at h
        by_cases hu : ∃ v, Limit ((last (c! 'T') opts).getD b!"15") v
        · obtain ⟨u, hu⟩ := hu
          simp only [k2.1 u hu] at h
          cases hg : last (c! 'g') opts with
          | none => simp only [hg] at h; cases h
          | some x =>
            simp only [hg] at h
            have G := greylist_ok ip6 buf x hb (value_noNul hk (Conf.last_mem hg))
            by_cases hx : ∃ host port, Parts ip6 x host port ∧ host.length ≤ 255 ∧ port ≠ []
            · obtain ⟨host, port, x1, x2, x3⟩ := hx
              obtain ⟨hi, lo, -, e3⟩ := G.1 host port x1 x2 x3
              simp only [e3] at h
              cases h
            · simp only [G.2 hx, Said.stop.injEq] at h
              obtain ⟨rfl, rfl⟩ := h
              refine ⟨rfl, ?_⟩
              have : (log_f (Log.set_level (verbosity opts)) 22 [some b!"unable to parse greylist host:port from the string: '", some x,
                  some b!"'"]).map Msg.text = heard opts [fatal 22 [b!"unable to parse greylist host:port from the string: '", x, b!"'"]] :=
                log_f_text opts 22 [_, _, _]
              rw [this]
              exact .greylist hr hp hg hx
        · obtain ⟨m', e3, e4⟩ := k2.2 hu
          simp only [e3, Said.stop.injEq] at h
          obtain ⟨rfl, rfl⟩ := h
          exact ⟨rfl, by rw [e4]; exact .limit hr hp (.inr rfl) hu⟩
      · obtain ⟨m', e3, e4⟩ := k1.2 ht
        simp only [e3, Said.stop.injEq] at h
        obtain ⟨rfl, rfl⟩ := h
        exact ⟨rfl, by rw [e4]; exact .limit hr hp (.inl rfl) ht⟩

/-! ### Every refused command line, and silence -/

/-- **C117.** Every command line that C77 does not serve is refused, with the reason. -/
theorem c117_tcp_refused (e : Int) (emptydir a : Bytes) (args : List Bytes) (ha : ∀ x ∈ a :: args, NoNul x)
    (h : ¬ ∃ opts host port, TcpGood args opts host port) :
    ∃ m, tcpStartS e emptydir (a :: args) = .stop 100 m ∧ TcpWhy e args (m.map Msg.text) := by
  have h1 := c77_tcp_refuses emptydir (a :: args) ha (by
    rintro ⟨a', args', opts, host, port, e, g⟩
    cases e
    exact h ⟨opts, host, port, g⟩)
  rw [← c117_tcp_same e] at h1
  cases eq : tcpStartS e emptydir (a :: args) with
  | ok st => rw [eq] at h1; cases h1
  | ub => rw [eq] at h1; cases h1
  | stop s m =>
    obtain ⟨rfl, g⟩ := c117_tcp_why e emptydir a args (fun x hx => ha x (by simp [hx])) s m eq
    exact ⟨m, rfl, g⟩

theorem c117_smtp_refused (e : Int) (ip6 : Bytes → Bool) (emptydir buf a : Bytes) (hb : buf.length = 6) (args : List Bytes)
    (ha : ∀ x ∈ a :: args, NoNul x) (h : ¬ ∃ opts prog, SmtpGood ip6 args opts prog) :
    ∃ m, smtpStartS e ip6 emptydir buf (a :: args) = .stop 100 m ∧ SmtpWhy e ip6 args (m.map Msg.text) := by
  have h1 := c77_smtp_refuses ip6 emptydir buf hb (a :: args) ha (by
    rintro ⟨a', args', opts, prog, e, g⟩
    cases e
    exact h ⟨opts, prog, g⟩)
  rw [← c117_smtp_same e] at h1
  cases eq : smtpStartS e ip6 emptydir buf (a :: args) with
  | ok st => rw [eq] at h1; cases h1
  | ub => rw [eq] at h1; cases h1
  | stop s m =>
    obtain ⟨rfl, g⟩ := c117_smtp_why e ip6 emptydir buf a hb args (fun x hx => ha x (by simp [hx])) s m eq
    exact ⟨m, rfl, g⟩

theorem reads_begins {args : List Bytes} {opts : List Opt} {rest : List Bytes} (h : Reads F A args opts rest) : Begins F A args opts := by
  induction h with
  | empty => exact .nil
  | rest _ => exact .nil
  | dash => exact .nil
  | dashes => exact .nil
  | word h1 h2 hw _ ih => exact .word h1 h2 hw ih

/-- **C117 (silence).** Nothing at all is said only after the option -q. -/
theorem c117_silent :
    (∀ (e : Int) (emptydir a : Bytes) (args : List Bytes), (∀ x ∈ args, NoNul x) → ∀ s, tcpStartS e emptydir (a :: args) = .stop s [] →
      ∃ opts, Begins tcpFlags tcpArgs args opts ∧ .flag (c! 'q') ∈ opts) ∧
    (∀ (e : Int) (ip6 : Bytes → Bool) (emptydir buf a : Bytes) (args : List Bytes), buf.length = 6 → (∀ x ∈ args, NoNul x) → ∀ s,
      smtpStartS e ip6 emptydir buf (a :: args) = .stop s [] →
      ∃ opts, Begins smtpFlags smtpArgs args opts ∧ .flag (c! 'q') ∈ opts) := by
  have nil (opts : List Opt) (x : Msg) (l : List Msg) (e : [] = heard opts (x :: l)) : .flag (c! 'q') ∈ opts := by
    refine Conf.verbosity_q opts ?_
    unfold heard at e
    split at e
    · assumption
    · cases e
  constructor
  · intro e emptydir a args ha s h
    have hw := (c117_tcp_why e emptydir a args ha s [] h).2
    simp only [List.map_nil] at hw
    generalize hm : ([] : List Msg) = m at hw
    cases hw with
    | unreadable => cases hm
    | noHost => cases hm
    | incoming hb => exact ⟨_, hb, List.mem_append_left _ (nil _ _ _ hm)⟩
    | outgoing hb => exact ⟨_, hb, List.mem_append_left _ (nil _ _ _ hm)⟩
    | noPort hr => exact ⟨_, reads_begins hr, nil _ _ _ hm⟩
    | port hr => exact ⟨_, reads_begins hr, nil _ _ _ hm⟩
    | limit hr => exact ⟨_, reads_begins hr, nil _ _ _ hm⟩
  · intro e ip6 emptydir buf a args hb ha s h
    have hw := (c117_smtp_why e ip6 emptydir buf a hb args ha s [] h).2
    simp only [List.map_nil] at hw
    generalize hm : ([] : List Msg) = m at hw
    cases hw with
    | unreadable => cases hm
    | noProg => cases hm
    | limit hr => exact ⟨_, reads_begins hr, nil _ _ _ hm⟩
    | greylist hr => exact ⟨_, reads_begins hr, nil _ _ _ hm⟩

/-! ### Samples -/

/-- A wrong version, a wrong port, and a forgotten port: the last text breaks off. -/
theorem c117_tcp_sample :
    tcpStartS 0 b!"/empty" [b!"t", b!"-P2", b!"h", b!"25"] =
      .stop 100 [⟨1, [b!"unable to parse outgoing proxy-protocol version from the string '", b!"2", b!"'"], 0⟩, ⟨1, [b!"available: 1"], 0⟩] ∧
    tcpStartS 0 b!"/empty" [b!"t", b!"h", b!"smtp"] =
      .stop 100 [⟨1, [b!"unable to parse TCP port (a number 0 - 65535) from the string '", b!"smtp", b!"'"], 22⟩] ∧
    tcpStartS 0 b!"/empty" [b!"t", b!"h"] = .stop 100 [⟨1, [b!"unable to parse TCP port (a number 0 - 65535) from the string '"], 22⟩] ∧
    tcpStartS 0 b!"/empty" [b!"t", b!"-q", b!"h"] = .stop 100 [] := by decide +kernel

example : smtpStartS 0 (fun _ => false) b!"/empty" [1, 2, 3, 4, 5, 6] [b!"s", b!"-g", b!"mx", b!"prog"] =
      .stop 100 [⟨1, [b!"unable to parse greylist host:port from the string: '", b!"mx", b!"'"], 22⟩] ∧
    smtpStartS 0 (fun _ => false) b!"/empty" [1, 2, 3, 4, 5, 6] [b!"s", b!"-t0", b!"prog"] =
      .stop 100 [⟨1, [b!"unable to parse timeout from the string '", b!"0", b!"', timeout must be a number in the range <1,86400>"], 22⟩] ∧
    smtpStartS 0 (fun _ => false) b!"/empty" [1, 2, 3, 4, 5, 6] [b!"s", b!"-q"] = .stop 100 [smtpUsage 0] := by
  decide +kernel

end Cmd
