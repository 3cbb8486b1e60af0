import Verif.Conf.Props
/-
C116: what tlswrapper says when it refuses a command line (main_tlswrapper.c:205-288, 302-519, 1134-1137,
1178-1279).
-/
namespace Conf
open Spec

/-! ### Model -/

/-- A log record: level (0 usage, 1 fatal), the texts, and errno at the call (log.h:47-51, 93-97). -/
structure Msg where
  level : Nat
  parts : List Bytes
  errno : Int
  deriving Repr, DecidableEq

/-- Like `Res`, with the records that are written before the process ends. Only records of the levels usage and
fatal are kept (the warnings of tls_cipher.c:143 and the error record of parsenum.c:132 are shown with -v and are left
out). (control flow of main_tlswrapper.c:302-526, 1135-1284) -/
inductive Said (α : Type u) where
  | ok (a : α)
  | stop (status : Nat) (msgs : List Msg)
  | ub
  deriving Repr, DecidableEq

/-- Without the records. (relates this model to the one of main_tlswrapper.c:1175-1279 in Conf.Model) -/
def Said.quiet {α} : Said α → Res α
  | .ok a => .ok a
  | .stop s _ => .exit s
  | .ub => .ub

/-- What the records depend on: `statErr` is errno after a failed stat (main_tlswrapper.c:395, 422, 448), `errno` what
it was set to before the options are read; successful calls leave it alone. -/
structure Sys where
  E : Env
  statErr : Bytes → Int
  errno : Int

/-- `log_f`, log.h:93-97. -/
def log_f (o : Opts) (errno : Int) (parts : List Bytes) : List Msg :=
  if o.log_level < 1 then [] else [⟨1, parts, errno⟩]

/-- main_tlswrapper.c:1134-1137 `usage`; `log_u` of log.h:47-51. -/
def usage (o : Opts) (errno : Int) : List Msg :=
  if o.log_level < 0 then [] else [⟨0, [b!"tlswrapper [options] [ -d certdir ] [ -f certfile ] prog"], errno⟩]

/-- What the function of option `c` logs before it ends the process, in the order of its tests
(main_tlswrapper.c:302-503). ENOTDIR is 20. -/
def argSays (S : Sys) (c : Byte) (x : Bytes) (o : Opts) : List Msg :=
  let e := S.errno
  if c = c! 'p' then                                                   -- :312-316
    log_f o e [b!"unable to parse incoming proxy-protocol version from the string '", x, b!"'"] ++
    log_f o e [b!"available: 1"]
  else if c = c! 'U' then                                              -- :336-341
    log_f o e [b!"unable to parse ASN.1 object from the string '", x, b!"'"] ++
    log_f o e [b!"available: commonName"] ++ log_f o e [b!"available: emailAddress"]
  else if c = c! 'M' then                                              -- :355-361
    log_f o e [b!"unable to parse TLS max. version from the string '", x, b!"'"] ++
    tls_versions.flatMap fun v => log_f o e [b!"available: ", v.1]
  else if c = c! 'm' then                                              -- :375-381
    log_f o e [b!"unable to parse TLS min. version from the string '", x, b!"'"] ++
    tls_versions.flatMap fun v => log_f o e [b!"available: ", v.1]
  else if c = c! 'd' then
    match S.E.stat x with
    | none => log_f o (S.statErr x) [b!"unable to stat certdir '", x, b!"'"]           -- :395-398
    | some k =>
      if k ≠ .dir then log_f o 20 [b!"unable to add certdir '", x, b!"'"]              -- :399-403
      else log_f o e [b!"unable to add more than ", b!"4", b!" certdirs+certfiles"]    -- :404-407
  else if c = c! 'f' then
    match S.E.stat x with
    | none => log_f o (S.statErr x) [b!"unable to stat certfile '", x, b!"'"]          -- :422-425
    | some k =>
      if k ≠ .reg then log_f o 0 [b!"unable to add certfile '", x, b!"': not a regular file"]   -- :426-430
      else log_f o e [b!"unable to add more than ", b!"4", b!" certdirs+certfiles"]    -- :431-434
  else if c = c! 'a' then
    match S.E.stat x with
    | none => log_f o (S.statErr x) [b!"unable to add anchor file '", x, b!"'"]        -- :448-451
    | some k =>
      if k ≠ .reg then log_f o 0 [b!"unable to add anchor file '", x, b!"': not a regular file"]  -- :452-456
      else log_f o e [b!"unable to add more than one anchor file"]                     -- :457-460
  else if c = c! 'e' then                                              -- :475-481
    log_f o e [b!"unable to parse ephemeral algorithm from the string '", x, b!"'"] ++
    (tls_ecdhes S.E.x448).flatMap fun v => log_f o e [b!"available: ", v.1]
  else if c = c! 'c' then                                              -- :496-502
    log_f o e [b!"unable to parse cipher from the string '", x, b!"'"] ++
    tls_ciphers.flatMap fun v => log_f o e [b!"available: ", v.name]
  else []

/-- The call of an option's function (main_tlswrapper.c:1195-1266). -/
def called (r : Res Opts) (msgs : List Msg) (args : List Bytes) : Said (Opts × List Bytes) :=
  match r with
  | .ok o => .ok (o, args)
  | .exit s => .stop s msgs
  | .ub => .ub

/-- `cluster` with the records (main_tlswrapper.c:1185-1272). The -a option changes a flag before its function is called, which
does not matter for the records. -/
def clusterS (S : Sys) : Bytes → List Bytes → Opts → Said (Opts × List Bytes)
  | [], args, o => .ok (o, args)
  | c :: w, args, o =>
    match flagOpt c o with
    | some o => clusterS S w args o
    | none =>
      match argOpt S.E c with
      | none => .stop 100 (usage o S.errno)
      | some f =>
        if w ≠ [] then called (f w o) (argSays S c w o) args
        else match args with
          | v :: args => called (f v o) (argSays S c v o) args
          | [] => .stop 100 (usage o S.errno)

theorem clusterS_quiet (S : Sys) (w : Bytes) (args : List Bytes) (o : Opts) :
    (clusterS S w args o).quiet = cluster S.E w args o := by
  induction w generalizing o with
  | nil => rfl
  | cons c w ih =>
    rw [clusterS, cluster]
    cases flagOpt c o with
    | some o => exact ih o
    | none =>
      cases argOpt S.E c with
      | none => rfl
      | some f =>
        by_cases hw : w = []
        · simp only [hw, ne_eq, not_true_eq_false, if_false]
          cases args with
          | nil => rfl
          | cons v args => cases h : f v o <;> simp [called, Said.quiet, bind, Res.bind, h, pure]
        · simp only [hw, ne_eq, not_false_eq_true, if_true]
          cases h : f w o <;> simp [called, Said.quiet, bind, Res.bind, h, pure]

/-- `options` with the records (main_tlswrapper.c:1179-1273). -/
def optionsS (S : Sys) (args : List Bytes) (o : Opts) : Said (Opts × List Bytes) :=
  match args with
  | [] => .ok (o, [])
  | a :: args =>
    if a.head? ≠ some (c! '-') then .ok (o, a :: args)
    else if a = b!"-" then .ok (o, args)
    else if a = b!"--" then .ok (o, args)
    else
      match h : clusterS S (a.drop 1) args o with
      | .ok (o, args) => optionsS S args o
      | .stop s m => .stop s m
      | .ub => .ub
termination_by args.length
decreasing_by
  have h := congrArg Said.quiet h
  rw [clusterS_quiet] at h
  have := cluster_length _ _ _ _ _ _ h
  simp; omega

/-- main_tlswrapper.c:512-519. EINVAL is 22 (parsenum.c:131). -/
def timeoutS (o : Opts) (x : Bytes) : Said Int :=
  match timeout_parse x with
  | .ok v => .ok v
  | .exit s => .stop s (log_f o 22 [b!"unable to parse timeout from the string '", x,
      b!"', timeout must be a number in the range <1,86400>"])
  | .ub => .ub

/-- `start` with the records (main_tlswrapper.c:1175-1279; die_optionUa and die_optionUn of :273-282). -/
def startS (S : Sys) (emptydir : Bytes) (argv : List Bytes) : Said Started :=
  let o := initial emptydir
  match tls_cipher_defaults o.ctx with
  | .ub => .ub
  | .ok c =>
    let o := { o with ctx := c }
    match argv with
    | [] => .stop 100 (usage o S.errno)
    | _ :: args =>
      match optionsS S args o with
      | .ub => .ub
      | .stop s m => .stop s m
      | .ok (o, prog) =>
        if prog = [] then .stop 100 (usage o S.errno)
        else if o.ctx.certfiles = [] then .stop 100 (usage o S.errno)
        else if o.userfromcert.isSome ∧ o.ctx.anchorfn.isNone then
          .stop 100 (log_f o S.errno [b!"option -U must be used with -a"])
        else if o.userfromcert.isSome ∧ o.ctx.flagdelayedenc = true then
          .stop 100 (log_f o S.errno [b!"option -U is not compatible with -n"])
        else match timeoutS o o.timeoutstr with
          | .ub => .ub
          | .stop s m => .stop s m
          | .ok timeout =>
            match timeoutS o o.hstimeoutstr with
            | .ub => .ub
            | .stop s m => .stop s m
            | .ok hstimeout => .ok ⟨o, prog, timeout, hstimeout⟩

/-! ### Specification -/

namespace Spec

/-- `Begins args opts`: the command line begins with the options `opts`, up to the end of a word. -/
inductive Begins : List Bytes → List Opt → Prop where
  | nil {args} : Begins args []
  | word {w args opts args' opts'} : w ≠ [] → w ≠ b!"-" → Word w args opts args' → Begins args' opts' →
      Begins ((c! '-' :: w) :: args) (opts ++ opts')

/-- A fatal message. -/
def fatal (errno : Int) (text : List Bytes) : Msg := ⟨1, [text.flatten], errno⟩

/-- One record is as good as another with the same text. -/
def Msg.text (m : Msg) : Msg := ⟨m.level, [m.parts.flatten], m.errno⟩

/-- The values listed as possible for an option. -/
def listed (x448 : Bool) (c : Byte) : List Bytes :=
  if c = c! 'p' then [b!"1"]
  else if c = c! 'U' then [b!"commonName", b!"emailAddress"]
  else if c = c! 'm' ∨ c = c! 'M' then [b!"tls10", b!"tls11", b!"tls12"]
  else if c = c! 'e' then [b!"x25519", b!"secp256r1", b!"secp384r1", b!"secp521r1"] ++ (if x448 then [b!"x448"] else [])
  else if c = c! 'c' then [b!"CHACHA20_POLY1305_SHA256", b!"AES_256_GCM_SHA384", b!"AES_128_GCM_SHA256", b!"AES_256_CBC_SHA384",
    b!"AES_128_CBC_SHA256", b!"AES_256_CBC_SHA", b!"AES_128_CBC_SHA"]
  else []

/-- What an option whose value is a name is called in the message. -/
def called (c : Byte) : Option Bytes :=
  if c = c! 'p' then some b!"incoming proxy-protocol version"
  else if c = c! 'U' then some b!"ASN.1 object"
  else if c = c! 'm' then some b!"TLS min. version"
  else if c = c! 'M' then some b!"TLS max. version"
  else if c = c! 'e' then some b!"ephemeral algorithm"
  else if c = c! 'c' then some b!"cipher"
  else none

/-- The complaint about option `c` with value `v`: for names the value and what would have been possible; for files the
reason of the system, or what is wrong with the file; and otherwise that there are too many. -/
def complaint (S : Sys) (c : Byte) (v : Bytes) : List Msg :=
  match called c with
  | some what => fatal S.errno [b!"unable to parse ", what, b!" from the string '", v, b!"'"] ::
      (listed S.E.x448 c).map fun x => fatal S.errno [b!"available: ", x]
  | none =>
    if c = c! 'd' then
      [if S.E.stat v = none then fatal (S.statErr v) [b!"unable to stat certdir '", v, b!"'"]
       else if S.E.stat v ≠ some .dir then fatal 20 [b!"unable to add certdir '", v, b!"'"]
       else fatal S.errno [b!"unable to add more than 4 certdirs+certfiles"]]
    else if c = c! 'f' then
      [if S.E.stat v = none then fatal (S.statErr v) [b!"unable to stat certfile '", v, b!"'"]
       else if S.E.stat v ≠ some .reg then fatal 0 [b!"unable to add certfile '", v, b!"': not a regular file"]
       else fatal S.errno [b!"unable to add more than 4 certdirs+certfiles"]]
    else
      [if S.E.stat v = none then fatal (S.statErr v) [b!"unable to add anchor file '", v, b!"'"]
       else if S.E.stat v ≠ some .reg then fatal 0 [b!"unable to add anchor file '", v, b!"': not a regular file"]
       else fatal S.errno [b!"unable to add more than one anchor file"]]

/-- Heard unless the options so far ask for silence. -/
def heard (opts : List Opt) (m : List Msg) : List Msg := if verbosity opts = 0 then [] else m

/-- The one line of usage. -/
def usageMsg (S : Sys) : Msg := ⟨0, [b!"tlswrapper [options] [ -d certdir ] [ -f certfile ] prog"], S.errno⟩

/-- Why a command line is refused, with what is said about it. -/
inductive Why (S : Sys) (args : List Bytes) : List Msg → Prop where
  /-- an unknown option, or one without its value, and nothing wrong before it -/
  | unreadable : (¬ ∃ opts prog, Reads args opts prog) → (∀ opts, Begins args opts → OkOpts S.E opts) → Why S args [usageMsg S]
  /-- no command, or no certificate -/
  | incomplete {opts prog} : Reads args opts prog → OkOpts S.E opts →
      (prog = [] ∨ (values (c! 'd') opts = [] ∧ values (c! 'f') opts = [])) → Why S args [usageMsg S]
  /-- the first option that cannot be accepted -/
  | option {opts c v} : Begins args (opts ++ [.arg c v]) → OkOpts S.E opts → ¬ OkOpts S.E (opts ++ [.arg c v]) →
      Why S args (heard opts (complaint S c v))
  | userAnchor {opts prog} : Reads args opts prog → OkOpts S.E opts → values (c! 'U') opts ≠ [] → values (c! 'a') opts = [] →
      Why S args (heard opts [fatal S.errno [b!"option -U must be used with -a"]])
  | userDelayed {opts prog} : Reads args opts prog → OkOpts S.E opts → values (c! 'U') opts ≠ [] →
      switch (c! 'n') (c! 'N') false opts = true →
      Why S args (heard opts [fatal S.errno [b!"option -U is not compatible with -n"]])
  /-- the value of -t or -T that counts is no time limit -/
  | limit {opts prog v} : Reads args opts prog → OkOpts S.E opts →
      (v = (last (c! 't') opts).getD b!"60" ∨ v = (last (c! 'T') opts).getD b!"30") → (¬ ∃ n, Limit v n) →
      Why S args (heard opts [fatal 22 [b!"unable to parse timeout from the string '", v,
        b!"', timeout must be a number in the range <1,86400>"]])

end Spec

/-! ### Proofs -/

theorem optionsS_cons (S : Sys) (w : Bytes) (args : List Bytes) (o : Opts) (h1 : w ≠ []) (h2 : w ≠ b!"-") :
    optionsS S ((c! '-' :: w) :: args) o = match clusterS S w args o with
      | .ok (o, args) => optionsS S args o
      | .stop s m => .stop s m
      | .ub => .ub := by
  rw [optionsS]
  have e1 : ¬ ((c! '-' :: w).head? ≠ some (c! '-')) := by simp
  have e2 : (c! '-' :: w) ≠ b!"-" := by simpa using h1
  have e3 : (c! '-' :: w) ≠ b!"--" := by simpa using h2
  rw [if_neg e1, if_neg e2, if_neg e3]
  split <;> rename_i h <;> (change clusterS S w args o = _ at h; rw [h])

/-- The words of a command line, one at a time. -/
theorem args_cases {P : List Bytes → Prop} (hnil : P []) (hprog : ∀ a args, a.head? ≠ some (c! '-') → P (a :: args))
    (hdash : ∀ args, P (b!"-" :: args)) (hdashes : ∀ args, P (b!"--" :: args))
    (hword : ∀ w args, w ≠ [] → w ≠ b!"-" → (∀ args', args'.length ≤ args.length → P args') → P ((c! '-' :: w) :: args))
    (args : List Bytes) : P args := by
  suffices H : ∀ n, ∀ args : List Bytes, args.length ≤ n → P args from H _ args (Nat.le_refl _)
  intro n
  induction n with
  | zero => intro args h; obtain rfl := List.eq_nil_of_length_eq_zero (by omega : args.length = 0); exact hnil
  | succ n ih =>
    intro args hn
    cases args with
    | nil => exact hnil
    | cons a args =>
      by_cases h1 : a.head? = some (c! '-')
      · obtain ⟨w, rfl⟩ : ∃ w, a = c! '-' :: w := by
          cases a with
          | nil => simp at h1
          | cons b w => simp at h1; exact ⟨w, by rw [h1]⟩
        by_cases h2 : w = []
        · subst h2; exact hdash _
        · by_cases h3 : w = b!"-"
          · subst h3; exact hdashes _
          · exact hword w args h2 h3 fun args' h => ih args' (by simp at hn; omega)
      · exact hprog _ _ h1

theorem optionsS_quiet (S : Sys) (args : List Bytes) (o : Opts) : (optionsS S args o).quiet = options S.E args o := by
  induction args using args_cases generalizing o with
  | hnil => simp [optionsS, options, Said.quiet]
  | hprog a args h => rw [optionsS, options, if_pos h, if_pos h]; rfl
  | hdash => simp [optionsS, options, Said.quiet]
  | hdashes => simp [optionsS, options, Said.quiet]
  | hword w args h1 h2 ih =>
    rw [optionsS_cons S w args o h1 h2, options_cons S.E w args o h1 h2, ← clusterS_quiet]
    cases h : clusterS S w args o with
    | ok p =>
      obtain ⟨o', args'⟩ := p
      have h := congrArg Said.quiet h
      rw [clusterS_quiet] at h
      exact ih args' (cluster_length _ _ _ _ _ _ h) o'
    | stop s m => rfl
    | ub => rfl

/-- What an option logs when it is refused. -/
def says (S : Sys) (o : Opts) : Opt → List Msg
  | .flag _ => []
  | .arg c v => argSays S c v o

theorem set_level_nonneg (n : Int) : 0 ≤ Log.set_level n := by
  unfold Log.set_level
  simp only
  repeat' split
  all_goals omega

theorem flagOpt_level {c : Byte} {o o' : Opts} (h : flagOpt c o = some o') (h0 : 0 ≤ o.log_level) : 0 ≤ o'.log_level := by
  unfold flagOpt at h
  repeat' split at h
  all_goals first
    | (cases h; done)
    | (cases h; show 0 ≤ Log.set_level _; exact set_level_nonneg _)
    | (cases h; show (0 : Int) ≤ Log.set_level 0; exact set_level_nonneg 0)
    | (cases h; show (0 : Int) ≤ Log.set_level 1; exact set_level_nonneg 1)
    | (cases h; exact h0)

theorem usage_heard (S : Sys) (o : Opts) (h : 0 ≤ o.log_level) : usage o S.errno = [usageMsg S] := by
  unfold usage
  rw [if_neg (by omega)]
  rfl

/-- A word that stops the program: unreadable, or its last option is refused. -/
theorem clusterS_stop (S : Sys) (w : Bytes) (args : List Bytes) (o : Opts) (h0 : 0 ≤ o.log_level) (s : Nat) (m : List Msg)
    (h : clusterS S w args o = .stop s m) :
    ((¬ ∃ opts args', Word w args opts args') ∧ s = 100 ∧ m = [usageMsg S]) ∨
    ∃ pre x args' o', Word w args (pre ++ [x]) args' ∧ fold S.E o pre = .ok o' ∧ step S.E o' x = .exit s ∧ m = says S o' x := by
  induction w generalizing o with
  | nil => simp [clusterS] at h
  | cons c w ih =>
    rw [clusterS] at h
    cases e : flagOpt c o with
    | some o1 =>
      rw [e] at h
      have hc := flagOpt_mem e
      rcases ih o1 (flagOpt_level e h0) h with ⟨g1, g2⟩ | ⟨pre, x, args', o', g1, g2, g3⟩
      · left
        refine ⟨?_, g2⟩
        rintro ⟨opts, args', hw⟩
        cases hw with
        | flag _ hw => exact g1 ⟨_, _, hw⟩
        | attached ha _ => exact disjoint _ ha hc
        | separate ha => exact disjoint _ ha hc
      · right
        refine ⟨.flag c :: pre, x, args', o', .flag hc g1, ?_, g3⟩
        simp only [fold, step, e, g2]
    | none =>
      rw [e] at h
      have hc : c ∉ flags := fun hc => by obtain ⟨o', e'⟩ := flagOpt_some o hc; rw [e'] at e; cases e
      cases e2 : argOpt S.E c with
      | none =>
        simp only [e2, Said.stop.injEq] at h
        left
        refine ⟨?_, h.1.symm, by rw [← h.2, usage_heard S o h0]⟩
        have hn : c ∉ withArg := fun hc => by obtain ⟨f, e'⟩ := argOpt_some S.E hc; rw [e'] at e2; cases e2
        rintro ⟨opts, args', hw⟩
        cases hw with
        | flag hf _ => exact hc hf
        | attached ha _ => exact hn ha
        | separate ha => exact hn ha
      | some f =>
        have ha := argOpt_mem e2
        simp only [e2] at h
        have fin (v : Bytes) (args' : List Bytes) (hw : Word (c :: w) args [.arg c v] args')
            (h : called (f v o) (argSays S c v o) args' = .stop s m) : ∃ pre x args' o', Word (c :: w) args (pre ++ [x]) args' ∧
              fold S.E o pre = .ok o' ∧ step S.E o' x = .exit s ∧ m = says S o' x := by
          refine ⟨[], .arg c v, args', o, hw, rfl, ?_⟩
          cases e3 : f v o with
          | ok o1 => simp [called, e3] at h
          | ub => simp [called, e3] at h
          | exit t =>
            simp only [called, e3, Said.stop.injEq] at h
            exact ⟨by simp [step, e2, e3, h.1], by simp [says, h.2]⟩
        by_cases hw : w = []
        · subst hw
          simp only [ne_eq, not_true_eq_false, if_false] at h
          cases args with
          | nil =>
            simp only [Said.stop.injEq] at h
            left
            refine ⟨?_, h.1.symm, by rw [← h.2, usage_heard S o h0]⟩
            rintro ⟨opts, args', hw⟩
            cases hw with
            | flag hf _ => exact hc hf
            | attached _ hn => exact hn rfl
          | cons v args => exact .inr (fin v args (.separate ha) h)
        · simp only [ne_eq, hw, not_false_eq_true, if_true] at h
          exact .inr (fin w args (.attached ha hw) h)

theorem step_level {E : Env} {o o' : Opts} {x : Opt} (h : step E o x = .ok o') (h0 : 0 ≤ o.log_level) : 0 ≤ o'.log_level := by
  have od (o : Opts) (r : Out (Bool × Ctx)) (h0 : 0 ≤ o.log_level) (h : orDie o r = .ok o') : 0 ≤ o'.log_level := by
    cases r with
    | ub => simp [orDie, Res.lift, bind, Res.bind] at h
    | ok p =>
      obtain ⟨b, c⟩ := p
      cases b <;> simp [orDie, Res.lift, bind, Res.bind, pure] at h
      rw [← h]; exact h0
  cases x with
  | flag c =>
    simp only [step] at h
    split at h
    · rename_i e; cases h; exact flagOpt_level e h0
    · cases h
  | arg c v =>
    simp only [step] at h
    cases e : argOpt E c with
    | none => rw [e] at h; cases h
    | some f =>
      have hm := argOpt_mem e
      rw [e] at h
      simp only at h
      simp only [withArg, List.mem_cons, List.not_mem_nil, or_false] at hm
      rcases hm with rfl | rfl | rfl | rfl | rfl | rfl | rfl | rfl | rfl | rfl | rfl | rfl | rfl | rfl
      all_goals (injection e with e; subst e)
      all_goals first
        | (cases h; exact h0)
        | exact od _ _ h0 h
        | skip
      · unfold pp_incoming at h
        generalize str_equal (b!"0" ++ [0]) v = r1 at h
        generalize str_equal (b!"1" ++ [0]) v = r2 at h
        rcases r1 with (_ | _) | _ <;> rcases r2 with (_ | _) | _ <;>
          simp [Res.lift, bind, Res.bind, pure] at h <;> rw [← h] <;> exact h0
      · unfold certuser_add at h
        generalize str_equal (b!"commonName" ++ [0]) v = r1 at h
        generalize str_equal (b!"emailAddress" ++ [0]) v = r2 at h
        rcases r1 with (_ | _) | _ <;> rcases r2 with (_ | _) | _ <;>
          simp [Res.lift, bind, Res.bind, pure] at h <;> rw [← h] <;> exact h0
      · unfold certfile_add_dir at h
        repeat' split at h
        all_goals first
          | (cases h; done)
          | exact od _ _ h0 h
      · unfold certfile_add_file at h
        repeat' split at h
        all_goals first
          | (cases h; done)
          | exact od _ _ h0 h
      · simp only [anchor_add] at h
        repeat' split at h
        all_goals first
          | (cases h; done)
          | exact od _ _ h0 h

theorem fold_level {E : Env} {o o' : Opts} {l : List Opt} (h : fold E o l = .ok o') (h0 : 0 ≤ o.log_level) : 0 ≤ o'.log_level := by
  induction l generalizing o with
  | nil => cases h; exact h0
  | cons x l ih =>
    simp only [fold] at h
    split at h
    · rename_i e; exact ih h (step_level e h0)
    · cases h
    · cases h

/-- A command line whose options stop the program. -/
theorem optionsS_stop (S : Sys) (args : List Bytes) (o : Opts) (h0 : 0 ≤ o.log_level) (s : Nat) (m : List Msg)
    (h : optionsS S args o = .stop s m) :
    ((¬ ∃ opts prog, Reads args opts prog) ∧ (∀ opts, Begins args opts → ∃ o', fold S.E o opts = .ok o') ∧ s = 100 ∧ m = [usageMsg S]) ∨
    ∃ pre x o', Begins args (pre ++ [x]) ∧ fold S.E o pre = .ok o' ∧ step S.E o' x = .exit s ∧ m = says S o' x := by
  induction args using args_cases generalizing o with
  | hnil => simp [optionsS] at h
  | hprog a args g => rw [optionsS, if_pos g] at h; cases h
  | hdash => simp [optionsS] at h
  | hdashes => simp [optionsS] at h
  | hword w args h1 h2 ih =>
    rw [optionsS_cons S w args o h1 h2] at h
    cases e : clusterS S w args o with
    | ub => simp [e] at h
    | stop s' m' =>
      simp only [e, Said.stop.injEq] at h
      obtain ⟨rfl, rfl⟩ := h
      rcases clusterS_stop S w args o h0 _ _ e with ⟨g1, g2⟩ | ⟨pre, x, args', o', g1, g2⟩
      · left
        refine ⟨?_, fun opts hb => ?_, g2⟩
        · rintro ⟨opts, prog, hr⟩
          cases hr with
          | prog hp => simp at hp
          | dash => exact h1 rfl
          | dashes => exact h2 rfl
          | word _ _ hw _ => exact g1 ⟨_, _, hw⟩
        · cases hb with
          | nil => exact ⟨o, rfl⟩
          | word _ _ hw _ => exact absurd ⟨_, _, hw⟩ g1
      · right
        refine ⟨pre, x, o', ?_, g2⟩
        have := Begins.word (opts' := []) h1 h2 g1 .nil
        simpa using this
    | ok p =>
      obtain ⟨o1, args1⟩ := p
      simp only [e] at h
      have e := congrArg Said.quiet e
      rw [clusterS_quiet] at e
      obtain ⟨opts1, hw⟩ := word_of_cluster e
      have hf : fold S.E o opts1 = .ok o1 := by
        have := cluster_word (E := S.E) hw o
        rw [show cluster S.E w args o = .ok (o1, args1) from e] at this
        cases hf : fold S.E o opts1 <;> simp [hf] at this
        rw [this]
      rcases ih args1 (cluster_length _ _ _ _ _ _ e) o1 (fold_level hf h0) h with ⟨g1, g0, g2⟩ | ⟨pre, x, o', g1, g2, g3⟩
      · left
        refine ⟨?_, fun opts hb => ?_, g2⟩
        · rintro ⟨opts, prog, hr⟩
          cases hr with
          | prog hp => simp at hp
          | dash => exact h1 rfl
          | dashes => exact h2 rfl
          | word _ _ hw' hr' =>
            obtain ⟨-, rfl⟩ := word_unique hw hw'
            exact g1 ⟨_, _, hr'⟩
        · cases hb with
          | nil => exact ⟨o, rfl⟩
          | word _ _ hw' hb' =>
            obtain ⟨rfl, rfl⟩ := word_unique hw hw'
            obtain ⟨o2, h2⟩ := g0 _ hb'
            exact ⟨o2, by rw [fold_append, hf]; exact h2⟩
      · right
        refine ⟨opts1 ++ pre, x, o', ?_, ?_, g3⟩
        · rw [List.append_assoc]; exact .word h1 h2 hw g1
        · rw [fold_append, hf]; exact g2

theorem begins_known {args : List Bytes} {opts : List Opt} (h : Begins args opts) (ha : ∀ a ∈ args, NoNul a) : ∀ x ∈ opts, Known x := by
  induction h with
  | nil => simp
  | word _ _ hw _ ih =>
    obtain ⟨h1, h2, -⟩ := word_known hw (fun b hb => ha _ List.mem_cons_self b (List.mem_cons_of_mem _ hb)) (fun a h => ha a (by simp [h]))
    intro x hx
    rcases List.mem_append.mp hx with hx | hx
    · exact h1 x hx
    · exact ih h2 x hx

theorem log_f_text (E : Env) (d : Bytes) (l : List Opt) (e : Int) (ps : List Bytes) :
    (log_f (conf E d l) e ps).map Msg.text = heard l [fatal e ps] := by
  unfold log_f heard
  by_cases h : verbosity l = 0
  · rw [if_pos h, if_pos (by simp only [conf, h]; decide)]; rfl
  · rw [if_neg h, if_neg (by simp only [conf]; omega)]; rfl

theorem heard_append (l : List Opt) (a b : List Msg) : heard l (a ++ b) = heard l a ++ heard l b := by
  unfold heard; split <;> rfl

theorem log_f_each {α} (E : Env) (d : Bytes) (l : List Opt) (e : Int) (t : List α) (f : α → List Bytes) :
    (t.flatMap fun v => log_f (conf E d l) e (f v)).map Msg.text = heard l (t.map fun v => fatal e (f v)) := by
  induction t with
  | nil => simp [heard]
  | cons x t ih =>
    rw [List.flatMap_cons, List.map_append, ih, log_f_text, ← heard_append]
    rfl

/-- A refused option is complained about. -/
theorem says_complaint (S : Sys) (d : Bytes) (l : List Opt) (c : Byte) (v : Bytes) (hc : c ∈ withArg) (hb : ¬ ArgOk S.E l c v) :
    (argSays S c v (conf S.E d l)).map Msg.text = heard l (complaint S c v) := by
  have two (e : Int) (ps : List Bytes) (t : List Msg) (r : List Msg) (hr : r.map Msg.text = heard l t) :
      (log_f (conf S.E d l) e ps ++ r).map Msg.text = heard l (fatal e ps :: t) := by
    rw [List.map_append, log_f_text, hr, ← heard_append]; rfl
  simp only [withArg, List.mem_cons, List.not_mem_nil, or_false] at hc
  rcases hc with rfl | rfl | rfl | rfl | rfl | rfl | rfl | rfl | rfl | rfl | rfl | rfl | rfl | rfl
  · exact two _ _ _ _ (log_f_text _ _ _ _ _)
  · show (log_f _ _ _ ++ log_f _ _ _ ++ log_f _ _ _).map Msg.text = _
    rw [List.append_assoc]
    exact two _ _ _ _ (two _ _ _ _ (log_f_text _ _ _ _ _))
  · exact absurd (by simp [ArgOk]) hb
  · exact two _ _ _ _ (log_f_each _ _ _ _ _ _)
  · exact two _ _ _ _ (log_f_each _ _ _ _ _ _)
  · exact absurd (by simp [ArgOk]) hb
  · exact absurd (by simp [ArgOk]) hb
  · have hs : argSays S (c! 'd') v (conf S.E d l) = match S.E.stat v with
        | none => log_f (conf S.E d l) (S.statErr v) [b!"unable to stat certdir '", v, b!"'"]
        | some k => if k ≠ .dir then log_f (conf S.E d l) 20 [b!"unable to add certdir '", v, b!"'"]
          else log_f (conf S.E d l) S.errno [b!"unable to add more than ", b!"4", b!" certdirs+certfiles"] := rfl
    have ht : complaint S (c! 'd') v = [if S.E.stat v = none then fatal (S.statErr v) [b!"unable to stat certdir '", v, b!"'"]
       else if S.E.stat v ≠ some .dir then fatal 20 [b!"unable to add certdir '", v, b!"'"]
       else fatal S.errno [b!"unable to add more than 4 certdirs+certfiles"]] := rfl
    rw [hs, ht]
    cases S.E.stat v with
    | none => exact log_f_text _ _ _ _ _
    | some k => cases k <;> exact log_f_text _ _ _ _ _
  · have hs : argSays S (c! 'f') v (conf S.E d l) = match S.E.stat v with
        | none => log_f (conf S.E d l) (S.statErr v) [b!"unable to stat certfile '", v, b!"'"]
        | some k => if k ≠ .reg then log_f (conf S.E d l) 0 [b!"unable to add certfile '", v, b!"': not a regular file"]
          else log_f (conf S.E d l) S.errno [b!"unable to add more than ", b!"4", b!" certdirs+certfiles"] := rfl
    have ht : complaint S (c! 'f') v = [if S.E.stat v = none then fatal (S.statErr v) [b!"unable to stat certfile '", v, b!"'"]
       else if S.E.stat v ≠ some .reg then fatal 0 [b!"unable to add certfile '", v, b!"': not a regular file"]
       else fatal S.errno [b!"unable to add more than 4 certdirs+certfiles"]] := rfl
    rw [hs, ht]
    cases S.E.stat v with
    | none => exact log_f_text _ _ _ _ _
    | some k => cases k <;> exact log_f_text _ _ _ _ _
  · have hs : argSays S (c! 'a') v (conf S.E d l) = match S.E.stat v with
        | none => log_f (conf S.E d l) (S.statErr v) [b!"unable to add anchor file '", v, b!"'"]
        | some k => if k ≠ .reg then log_f (conf S.E d l) 0 [b!"unable to add anchor file '", v, b!"': not a regular file"]
          else log_f (conf S.E d l) S.errno [b!"unable to add more than one anchor file"] := rfl
    have ht : complaint S (c! 'a') v = [if S.E.stat v = none then fatal (S.statErr v) [b!"unable to add anchor file '", v, b!"'"]
       else if S.E.stat v ≠ some .reg then fatal 0 [b!"unable to add anchor file '", v, b!"': not a regular file"]
       else fatal S.errno [b!"unable to add more than one anchor file"]] := rfl
    rw [hs, ht]
    cases S.E.stat v with
    | none => exact log_f_text _ _ _ _ _
    | some k => cases k <;> exact log_f_text _ _ _ _ _
  · have := log_f_each S.E d l S.errno (tls_ecdhes S.E.x448) (fun v => [b!"available: ", v.1])
    have key : ∀ b, (tls_ecdhes b).map (fun v => fatal S.errno [b!"available: ", v.1]) =
        (listed b (c! 'e')).map fun x => fatal S.errno [b!"available: ", x] := by intro b; cases b <;> rfl
    rw [key] at this
    exact two _ _ _ _ this
  · exact two _ _ _ _ (log_f_each _ _ _ _ _ _)
  · exact absurd (by simp [ArgOk]) hb
  · exact absurd (by simp [ArgOk]) hb

/-! ### C116 -/

/-- The records change nothing: without them this is the program of C60. -/
theorem c116_same (S : Sys) (emptydir : Bytes) (argv : List Bytes) : (startS S emptydir argv).quiet = start S.E emptydir argv := by
  have ht (o : Opts) (x : Bytes) : (timeoutS o x).quiet = timeout_parse x := by
    unfold timeoutS; cases timeout_parse x <;> rfl
  cases argv with
  | nil => unfold startS start; simp only [(defaults_conf S.E emptydir).1, Res.lift, bind, Res.bind]; rfl
  | cons a args =>
    rw [start_eq]
    unfold startS
    simp only [(defaults_conf S.E emptydir).1]
    rw [(defaults_conf S.E emptydir).2, ← optionsS_quiet]
    cases optionsS S args (conf S.E emptydir []) with
    | ub => rfl
    | stop s m => rfl
    | ok p =>
      obtain ⟨o, prog⟩ := p
      simp only [Said.quiet, bind, Res.bind]
      by_cases h1 : prog = []
      · rw [if_pos h1, if_pos h1]
      rw [if_neg h1, if_neg h1]
      by_cases h2 : o.ctx.certfiles = []
      · rw [if_pos h2, if_pos h2]
      rw [if_neg h2, if_neg h2]
      by_cases h3 : o.userfromcert.isSome ∧ o.ctx.anchorfn.isNone
      · rw [if_pos h3, if_pos h3]
      rw [if_neg h3, if_neg h3]
      by_cases h4 : o.userfromcert.isSome ∧ o.ctx.flagdelayedenc = true
      · rw [if_pos h4, if_pos h4]
      rw [if_neg h4, if_neg h4, ← ht o, ← ht o]
      cases timeoutS o o.timeoutstr with
      | ub => rfl
      | stop s m => rfl
      | ok t => cases timeoutS o o.hstimeoutstr <;> rfl

/-- **C116.** A refused command line ends the program with 100, and what is said is the reason. -/
theorem c116_why (S : Sys) (emptydir a : Bytes) (args : List Bytes) (ha : ∀ x ∈ args, NoNul x) (s : Nat) (m : List Msg)
    (h : startS S emptydir (a :: args) = .stop s m) : s = 100 ∧ Why S args (m.map Msg.text) := by
  have um : [usageMsg S].map Msg.text = [usageMsg S] := rfl
  unfold startS at h
  simp only [(defaults_conf S.E emptydir).1] at h
  rw [(defaults_conf S.E emptydir).2] at h
  have l0 : 0 ≤ (conf S.E emptydir []).log_level := by simp only [conf]; omega
  cases e : optionsS S args (conf S.E emptydir []) with
  | ub => simp [e] at h
  | stop s' m' =>
    simp only [e, Said.stop.injEq] at h
    obtain ⟨rfl, rfl⟩ := h
    rcases optionsS_stop S args _ l0 _ _ e with ⟨g1, g0, g2, g3⟩ | ⟨pre, x, o', g1, g2, g3, g4⟩
    · refine ⟨g2, ?_⟩
      rw [g3, um]
      refine .unreadable g1 fun opts hb => Classical.byContradiction fun hv => ?_
      obtain ⟨o', e'⟩ := g0 opts hb
      rw [(fold_conf S.E emptydir opts (begins_known hb ha)).2 hv] at e'
      cases e'
    · have hk := begins_known g1 ha
      have hk' : ∀ x ∈ pre, Known x := fun y hy => hk y (by simp [hy])
      by_cases hv : OkOpts S.E pre
      · rw [(fold_conf S.E emptydir pre hk').1 hv] at g2
        cases g2
        have hx := hk x (by simp)
        cases x with
        | flag c => rw [step_flag S.E emptydir pre c hx] at g3; cases g3
        | arg c v =>
          obtain ⟨t1, t2⟩ := step_arg S.E emptydir pre c v hx.1 hx.2 hv
          have hb : ¬ ArgOk S.E pre c v := fun g => by rw [t1 g] at g3; cases g3
          rw [t2 hb] at g3
          cases g3
          refine ⟨rfl, ?_⟩
          rw [g4]
          unfold says
          rw [says_complaint S emptydir pre c v hx.1 hb]
          exact .option g1 hv (fun g => hb ((valid_arg S.E c v pre).mp g).2)
      · rw [(fold_conf S.E emptydir pre hk').2 hv] at g2; cases g2
  | ok p =>
    obtain ⟨o, prog⟩ := p
    simp only [e] at h
    have e := congrArg Said.quiet e
    rw [optionsS_quiet] at e
    have e : options S.E args (conf S.E emptydir []) = .ok (o, prog) := e
    obtain ⟨opts, hr⟩ : ∃ opts, Reads args opts prog := by
      by_cases hr : ∃ opts prog, Reads args opts prog
      · obtain ⟨opts, prog', hr⟩ := hr
        have := options_reads (E := S.E) hr (conf S.E emptydir [])
        rw [e] at this
        cases hf : fold S.E (conf S.E emptydir []) opts <;> simp [hf] at this
        exact ⟨opts, this.2 ▸ hr⟩
      · rw [options_bad (fun o l hl => fold_tame S.E o l hl) args.length (Nat.le_refl _) hr ha] at e; cases e
    have hk := reads_known hr ha
    rw [options_reads hr] at e
    have hv : OkOpts S.E opts := Classical.byContradiction fun hv => by
      rw [(fold_conf S.E emptydir opts hk).2 hv] at e; cases e
    rw [(fold_conf S.E emptydir opts hk).1 hv] at e
    simp only [Res.ok.injEq, Prod.mk.injEq, and_true] at e
    subst e
    have lv : 0 ≤ (conf S.E emptydir opts).log_level := by simp only [conf]; omega
    have tl (x : Bytes) (hx : NoNul x) (s : Nat) (m : List Msg) (g : timeoutS (conf S.E emptydir opts) x = .stop s m) :
        s = 100 ∧ (¬ ∃ n, Limit x n) ∧ m.map Msg.text = heard opts [fatal 22 [b!"unable to parse timeout from the string '", x,
          b!"', timeout must be a number in the range <1,86400>"]] := by
      unfold timeoutS at g
      by_cases hl : ∃ n, Limit x n
      · obtain ⟨n, hl⟩ := hl
        rw [(timeout_ok x hx).1 n hl] at g; cases g
      · rw [(timeout_ok x hx).2 hl] at g
        cases g
        exact ⟨rfl, hl, log_f_text _ _ _ _ _⟩
    have hn1 : NoNul ((last (c! 't') opts).getD b!"60") := by
      cases e : last (c! 't') opts with
      | none => decide
      | some v => exact value_noNul hk (last_mem e)
    have hn2 : NoNul ((last (c! 'T') opts).getD b!"30") := by
      cases e : last (c! 'T') opts with
      | none => decide
      | some v => exact value_noNul hk (last_mem e)
    split at h
    · rename_i hp
      cases h
      exact ⟨rfl, by rw [usage_heard S _ lv, um]; exact .incomplete hr hv (.inl hp)⟩
    split at h
    · rename_i _ hc
      cases h
      refine ⟨rfl, ?_⟩
      rw [usage_heard S _ lv, um]
      refine .incomplete hr hv (.inr ?_)
      have hc : certs opts = [] := hc
      have := certs_length opts
      rw [hc] at this
      exact ⟨List.length_eq_zero_iff.mp (by simp at this; omega), List.length_eq_zero_iff.mp (by simp at this; omega)⟩
    split at h
    · rename_i hu
      cases h
      refine ⟨rfl, ?_⟩
      rw [log_f_text]
      refine .userAnchor hr hv ?_ ?_
      · intro g
        have hu : (last (c! 'U') opts).isSome := hu.1
        rw [last_none.mpr g] at hu; simp at hu
      · have hu : ((values (c! 'a') opts).head?).isNone := hu.2
        simpa using hu
    split at h
    · rename_i hd
      cases h
      refine ⟨rfl, ?_⟩
      rw [log_f_text]
      refine .userDelayed hr hv ?_ hd.2
      intro g
      have hu : (last (c! 'U') opts).isSome := hd.1
      rw [last_none.mpr g] at hu; simp at hu
    cases e1 : timeoutS (conf S.E emptydir opts) (conf S.E emptydir opts).timeoutstr with
    | ub => simp [e1] at h
    | stop s' m' =>
      simp only [e1, Said.stop.injEq] at h
      obtain ⟨rfl, rfl⟩ := h
      obtain ⟨r1, r2, r3⟩ := tl _ hn1 _ _ e1
      exact ⟨r1, by rw [r3]; exact .limit hr hv (.inl rfl) r2⟩
    | ok t =>
      simp only [e1] at h
      cases e2 : timeoutS (conf S.E emptydir opts) (conf S.E emptydir opts).hstimeoutstr with
      | ub => simp [e2] at h
      | stop s' m' =>
        simp only [e2, Said.stop.injEq] at h
        obtain ⟨rfl, rfl⟩ := h
        obtain ⟨r1, r2, r3⟩ := tl _ hn2 _ _ e2
        exact ⟨r1, by rw [r3]; exact .limit hr hv (.inr rfl) r2⟩
      | ok ht => simp [e2] at h

/-- **C116.** Every command line that C60 does not serve is refused, with the reason. -/
theorem c116_refused (S : Sys) (emptydir a : Bytes) (args : List Bytes) (ha : ∀ x ∈ a :: args, NoNul x)
    (h : ¬ ∃ opts prog, Good S.E args opts prog) :
    ∃ m, startS S emptydir (a :: args) = .stop 100 m ∧ Why S args (m.map Msg.text) := by
  have h1 := c60_refuses S.E emptydir (a :: args) ha (by
    rintro ⟨a', args', opts, prog, e, g⟩
    cases e
    exact h ⟨opts, prog, g⟩)
  rw [← c116_same S] at h1
  cases e : startS S emptydir (a :: args) with
  | ok st => rw [e] at h1; cases h1
  | ub => rw [e] at h1; cases h1
  | stop s m =>
    obtain ⟨rfl, g⟩ := c116_why S emptydir a args (fun x hx => ha x (by simp [hx])) s m e
    exact ⟨m, rfl, g⟩

/-- **C116 (possible values).** The values listed are exactly those that are accepted; for -p the value 0, for no
proxy protocol, is accepted as well. -/
theorem c116_available (x448 : Bool) (isDir isReg : Bytes → Prop) (c : Byte) (what v : Bytes) (h : Spec.called c = some what) :
    Valid x448 isDir isReg [.arg c v] ↔ v ∈ listed x448 c ∨ (c = c! 'p' ∧ v = b!"0") := by
  have hc : c ∈ b!"pUmMec" := by
    unfold Spec.called at h
    repeat' split at h
    all_goals first
      | (cases h; done)
      | (subst_vars; decide)
  have hv : (version v).isSome ↔ v ∈ [b!"tls10", b!"tls11", b!"tls12"] := by
    unfold version
    repeat' split
    all_goals simp_all
  have hk : (curve x448 v).isSome ↔ v ∈ listed x448 (c! 'e') := by
    unfold curve
    cases x448
    all_goals
      repeat' split
      all_goals simp_all [listed]
  have hs : (cipher v).isSome ↔ v ∈ listed x448 (c! 'c') := by
    unfold cipher
    repeat' split
    all_goals simp_all [listed]
  have key (P : Prop) (f : Valid x448 isDir isReg [.arg c v] → P) (g : P → Valid x448 isDir isReg [.arg c v])
      (Q : Prop) (e : P ↔ Q) : Valid x448 isDir isReg [.arg c v] ↔ Q := ⟨fun x => e.mp (f x), fun x => g (e.mpr x)⟩
  simp only [List.mem_cons, List.not_mem_nil, or_false] at hc
  rcases hc with rfl | rfl | rfl | rfl | rfl | rfl
  · refine key (v = b!"0" ∨ v = b!"1") (fun h => h.proxy v (by simp [values])) (fun h => ?_) _ ?_
    · constructor <;> simp [values]; exact h
    · simp [listed, or_comm]
  · refine key (v = b!"commonName" ∨ v = b!"emailAddress") (fun h => h.certuser v (by simp [values])) (fun h => ?_) _ ?_
    · constructor <;> simp [values]; exact h
    · simp [listed]
  · refine key _ (fun h => h.min v (by simp [values])) (fun h => ?_) _ (hv.trans ?_)
    · constructor <;> simp [values]; exact h
    · simp [listed]
  · refine key _ (fun h => h.max v (by simp [values])) (fun h => ?_) _ (hv.trans ?_)
    · constructor <;> simp [values]; exact h
    · simp [listed]
  · refine key _ (fun h => h.curves v (by simp [values])) (fun h => ?_) _ (hk.trans ?_)
    · constructor <;> simp [values]; exact h
    · simp
  · refine key _ (fun h => h.ciphers v (by simp [values])) (fun h => ?_) _ (hs.trans ?_)
    · constructor <;> simp [values]; exact h
    · simp

/-- **C116 (the value).** The first line about an option that is not acceptable by itself shows its value. -/
theorem c116_names (S : Sys) (c : Byte) (v : Bytes) (hc : c ∈ withArg) (h : ¬ OkOpts S.E [.arg c v]) :
    ∃ e x y rest, complaint S c v = ⟨1, [x ++ v ++ y], e⟩ :: rest := by
  have h : ¬ ArgOk S.E [] c v := by
    intro g
    exact h ((valid_arg S.E c v []).mpr ⟨⟨by simp [values], by simp [values], by simp [values], by simp [values], by simp [values],
      by simp [values], by simp [values], by simp [values], by simp [values], by simp [values], by simp [values]⟩, g⟩)
  have one (a b : Bytes) (e : Int) : ∃ e' x y rest, [fatal e [a, v, b]] = (⟨1, [x ++ v ++ y], e'⟩ : Msg) :: rest :=
    ⟨e, a, b, [], by simp [fatal]⟩
  unfold complaint
  cases hcl : Spec.called c with
  | some what =>
    exact ⟨S.errno, b!"unable to parse " ++ what ++ b!" from the string '", b!"'", _, by simp [fatal]; rfl⟩
  | none =>
    simp only
    simp only [withArg, List.mem_cons, List.not_mem_nil, or_false] at hc
    rcases hc with rfl | rfl | rfl | rfl | rfl | rfl | rfl | rfl | rfl | rfl | rfl | rfl | rfl | rfl
    all_goals first
      | (exfalso; revert hcl; decide)
      | (refine absurd ?_ h; simp [ArgOk]; done)
      | skip
    · rw [if_pos rfl]
      have h : ¬ S.E.stat v = some .dir := fun g => h (by simp [ArgOk, Env.isDir, g, certs])
      by_cases h1 : S.E.stat v = none
      · rw [if_pos h1]; exact one _ _ _
      · rw [if_neg h1, if_pos h]; exact one _ _ _
    · rw [if_neg (by decide), if_pos rfl]
      have h : ¬ S.E.stat v = some .reg := fun g => h (by simp [ArgOk, Env.isReg, g, certs])
      by_cases h1 : S.E.stat v = none
      · rw [if_pos h1]; exact one _ _ _
      · rw [if_neg h1, if_pos h]; exact one _ _ _
    · rw [if_neg (by decide), if_neg (by decide)]
      have h : ¬ S.E.stat v = some .reg := fun g => h (by simp [ArgOk, Env.isReg, g, values])
      by_cases h1 : S.E.stat v = none
      · rw [if_pos h1]; exact one _ _ _
      · rw [if_neg h1, if_pos h]; exact one _ _ _

theorem verbosity_q (opts : List Opt) (h : verbosity opts = 0) : Opt.flag (c! 'q') ∈ opts := by
  refine Classical.byContradiction fun hq => ?_
  have : ∀ (l : List Opt) (n : Nat), Opt.flag (c! 'q') ∉ l → 1 ≤ n → 1 ≤ l.foldl (fun n o => if o = .flag (c! 'q') then 0
      else if o = .flag (c! 'Q') then 1 else if o = .flag (c! 'v') then n + 1 else n) n := by
    intro l
    induction l with
    | nil => intro n _ h; exact h
    | cons x l ih =>
      intro n hl hn
      simp only [List.mem_cons, not_or] at hl
      rw [List.foldl_cons]
      refine ih _ hl.2 ?_
      rw [if_neg (fun e => hl.1 e.symm)]
      split
      · exact Nat.le_refl _
      · split <;> omega
  have := this opts 1 hq (Nat.le_refl _)
  unfold verbosity at h
  omega

theorem reads_begins {args : List Bytes} {opts : List Opt} {prog : List Bytes} (h : Reads args opts prog) : Begins args opts := by
  induction h with
  | empty => exact .nil
  | prog _ => exact .nil
  | dash => exact .nil
  | dashes => exact .nil
  | word h1 h2 hw _ ih => exact .word h1 h2 hw ih

/-- **C116 (silence).** Nothing at all is said only after the option -q. -/
theorem c116_silent (S : Sys) (emptydir a : Bytes) (args : List Bytes) (ha : ∀ x ∈ args, NoNul x) (s : Nat)
    (h : startS S emptydir (a :: args) = .stop s []) : ∃ opts, Begins args opts ∧ .flag (c! 'q') ∈ opts := by
  have hw := (c116_why S emptydir a args ha s [] h).2
  have nil (opts : List Opt) (x : Msg) (l : List Msg) (e : [] = heard opts (x :: l)) : verbosity opts = 0 := by
    unfold heard at e
    split at e
    · assumption
    · cases e
  simp only [List.map_nil] at hw
  generalize hm : ([] : List Msg) = m at hw
  cases hw with
  | unreadable => cases hm
  | incomplete => cases hm
  | option hb hv hn =>
    rename_i opts c v
    refine ⟨_, hb, List.mem_append_left _ (verbosity_q _ ?_)⟩
    have : ∃ x l, complaint S c v = x :: l := by
      unfold complaint
      split
      · exact ⟨_, _, rfl⟩
      · split
        · exact ⟨_, _, rfl⟩
        · split <;> exact ⟨_, _, rfl⟩
    obtain ⟨x, l, e⟩ := this
    rw [e] at hm
    exact nil _ _ _ hm
  | userAnchor hr _ _ _ => exact ⟨_, reads_begins hr, verbosity_q _ (nil _ _ _ hm)⟩
  | userDelayed hr _ _ _ => exact ⟨_, reads_begins hr, verbosity_q _ (nil _ _ _ hm)⟩
  | limit hr _ _ _ => exact ⟨_, reads_begins hr, verbosity_q _ (nil _ _ _ hm)⟩

/-! ### Samples -/

/-- A system on which a missing file gives ENOENT. -/
def sampleSys : Sys := ⟨sampleEnv, fun _ => 2, 0⟩

/-- A misspelt version: its value, and the three possible ones. -/
example : startS sampleSys b!"/empty" [b!"w", b!"-d/certs", b!"-m", b!"tls1.2", b!"prog"] =
    .stop 100 [⟨1, [b!"unable to parse TLS min. version from the string '", b!"tls1.2", b!"'"], 0⟩,
      ⟨1, [b!"available: ", b!"tls10"], 0⟩, ⟨1, [b!"available: ", b!"tls11"], 0⟩, ⟨1, [b!"available: ", b!"tls12"], 0⟩] := by
  decide +kernel

/-- A missing file: the system's reason. -/
example : startS sampleSys b!"/empty" [b!"w", b!"-f/missing", b!"prog"] =
    .stop 100 [⟨1, [b!"unable to stat certfile '", b!"/missing", b!"'"], 2⟩] := by decide +kernel

/-- After -q only the usage is said: the same mistake is silent. -/
theorem c116_silent_sample : startS sampleSys b!"/empty" [b!"w", b!"-q", b!"-f/missing", b!"prog"] = .stop 100 [] ∧
    startS sampleSys b!"/empty" [b!"w", b!"-f/missing", b!"-q", b!"prog"] ≠ .stop 100 [] := by
  constructor <;> decide +kernel

/-- The hypotheses of `c116_refused` and `c116_why` are met. -/
example : ∃ m, startS sampleSys b!"/" (b!"w" :: [b!"-x", b!"prog"]) = .stop 100 m ∧ m = [usageMsg sampleSys] := ⟨_, by decide +kernel, rfl⟩

end Conf
