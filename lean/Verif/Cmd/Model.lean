import Verif.Conf.Model
import Verif.HostPort.Model
import Verif.Cmd.Spec
/-
Model of tlswrapper.c (the choice of the program) and of the command lines of
main_tlswrapper_tcp.c and main_tlswrapper_smtp.c. The two option loops are the same text
with different letters and are modelled once, with the letters as parameters. Strings are
their contents without the terminator. Log texts are left out.
-/
namespace Cmd
open Conf (Res)
open Spec

/-! ### tlswrapper.c -/

/-- tlswrapper.c:28-32: the loop of basename; `s` and `ret` are what is at the two pointers. -/
def basenameLoop : Bytes → Bytes → Out Bytes
  | [], _ => .ub
  | b :: s, ret => if b = 0 then .ok ret else basenameLoop s (if b = c! '/' then s else ret)

/-- tlswrapper.c:21-33. -/
def basename (str : Bytes) : Out Bytes := basenameLoop str str

/-- str_equal on two strings given with their terminators (str.h). -/
def str_equal (x y : Bytes) : Out Bool := do return (← Str.str_diff x y) = 0

/-- tlswrapper.c:49-65: the entry point that main() calls; exit code 100 without argv[0]. -/
def main : List Bytes → Res Program
  | [] => .exit 100                                                  -- :51-52
  | a :: _ => do
    let x ← .lift (basename (a ++ [0]))                              -- :54
    if ← .lift (str_equal x (b!"tlswrapper-tcp" ++ [0])) then return .tcp
    else if ← .lift (str_equal x (b!"tlswrapper-smtp" ++ [0])) then return .smtp
    else return .wrapper

/-! ### The option loop -/

/-- What the letters of a program do to its settings (main_tlswrapper_tcp.c:242-290,
main_tlswrapper_smtp.c:846-920). -/
structure Letters (σ : Type) where
  flag : Byte → σ → Option σ
  arg : Byte → Option (Bytes → σ → Res σ)

/-- main_tlswrapper_tcp.c:251-283, main_tlswrapper_smtp.c:855-890: the characters of one word
after the dash; `args` is what follows the word on the command line. -/
def cluster {σ} (L : Letters σ) : Bytes → List Bytes → σ → Res (σ × List Bytes)
  | [], args, o => .ok (o, args)
  | c :: w, args, o =>
    match L.flag c o with
    | some o => cluster L w args o
    | none =>
      match L.arg c with
      | none => .exit 100                                            -- usage()
      | some f =>
        if w ≠ [] then do return (← f w o, args)
        else match args with
          | v :: args => do return (← f v o, args)
          | [] => .exit 100                                          -- falls through to usage()

theorem cluster_length {σ} (L : Letters σ) (w : Bytes) (args : List Bytes) (o o' : σ) (args' : List Bytes)
    (h : cluster L w args o = .ok (o', args')) : args'.length ≤ args.length := by
  induction w generalizing o with
  | nil => simp only [cluster, Res.ok.injEq, Prod.mk.injEq] at h; rw [h.2]; exact Nat.le_refl _
  | cons c w ih =>
    rw [cluster] at h
    split at h
    · exact ih _ h
    · split at h
      · simp at h
      · rename_i f _
        split at h
        · cases hf : f w o <;> simp only [hf, bind, Res.bind, pure] at h <;> simp at h
          rw [h.2]; exact Nat.le_refl _
        · split at h
          · rename_i v args1
            cases hf : f v o <;> simp only [hf, bind, Res.bind, pure] at h <;> simp at h
            rw [← h.2]; simp
          · simp at h

/-- main_tlswrapper_tcp.c:245-284, main_tlswrapper_smtp.c:849-891: `args` are the arguments after
argv[0]; the result holds the remaining ones. -/
def options {σ} (L : Letters σ) (args : List Bytes) (o : σ) : Res (σ × List Bytes) :=
  match args with
  | [] => .ok (o, [])
  | a :: args =>
    if a.head? ≠ some (c! '-') then .ok (o, a :: args)
    else if a = b!"-" then .ok (o, args)
    else if a = b!"--" then .ok (o, args)
    else
      match h : cluster L (a.drop 1) args o with
      | .ok (o, args) => options L args o
      | .exit s => .exit s
      | .ub => .ub
termination_by args.length
decreasing_by
  have := cluster_length _ _ _ _ _ _ h
  simp; omega

/-- main_tlswrapper_tcp.c:186-194, main_tlswrapper_smtp.c:173-181. -/
def timeout_parse (x : Bytes) : Res Int := do
  let (r, v) ← .lift (Num.parsenum 1 86400 (some (x ++ [0])))
  if r = 0 then .exit 100 else return v

/-! ### tlswrapper-tcp -/

/-- main_tlswrapper_tcp.c:32-63 and 124-129: the settings. -/
structure Tcp where
  timeoutstr : Bytes
  connecttimeoutstr : Bytes
  ppin : Bool
  ppout : Bool
  account : Option Bytes
  empty_dir : Bytes
  flagverbose : Int
  log_level : Int
  deriving Repr, DecidableEq

/-- main_tlswrapper_tcp.c:136-153. -/
def pp_incoming (x : Bytes) (o : Tcp) : Res Tcp := do
  if ← .lift (str_equal (b!"0" ++ [0]) (x ++ [0])) then return o
  else if ← .lift (str_equal (b!"1" ++ [0]) (x ++ [0])) then return { o with ppin := true }
  else .exit 100

/-- main_tlswrapper_tcp.c:159-176. -/
def pp_outgoing (x : Bytes) (o : Tcp) : Res Tcp := do
  if ← .lift (str_equal (b!"0" ++ [0]) (x ++ [0])) then return o
  else if ← .lift (str_equal (b!"1" ++ [0]) (x ++ [0])) then return { o with ppout := true }
  else .exit 100

/-- main_tlswrapper_tcp.c:252-281. -/
def tcpLetters : Letters Tcp where
  flag c o :=
    if c = c! 'q' then some { o with flagverbose := 0, log_level := Log.set_level 0 }
    else if c = c! 'Q' then some { o with flagverbose := 1, log_level := Log.set_level 1 }
    else if c = c! 'v' then some { o with flagverbose := o.flagverbose + 1, log_level := Log.set_level (o.flagverbose + 1) }
    else none
  arg c :=
    if c = c! 'T' then some (fun x o => .ok { o with connecttimeoutstr := x })
    else if c = c! 't' then some (fun x o => .ok { o with timeoutstr := x })
    else if c = c! 'p' then some pp_incoming
    else if c = c! 'P' then some pp_outgoing
    else if c = c! 'J' then some (fun x o => .ok { o with empty_dir := x })
    else if c = c! 'j' then some (fun x o => .ok { o with account := some x })
    else none

/-- main_tlswrapper_tcp.c:32-63: the initial values; `emptydir` is the compiled-in jail directory. -/
def tcpInitial (emptydir : Bytes) : Tcp where
  timeoutstr := b!"3600"
  connecttimeoutstr := b!"10"
  ppin := false
  ppout := false
  account := none
  empty_dir := emptydir
  flagverbose := 1
  log_level := 1

/-- What tlswrapper-tcp goes on with (main_tlswrapper_tcp.c:226-297). -/
structure TcpStarted where
  opts : Tcp
  host : Bytes
  port : Byte × Byte
  timeout : Int
  connecttimeout : Int
  deriving Repr, DecidableEq

/-- main_tlswrapper_tcp.c:244-297. -/
def tcpStart (emptydir : Bytes) : List Bytes → Res TcpStarted
  | [] => .exit 100                                                  -- :244
  | _ :: args => do
    let (o, rest) ← options tcpLetters args (tcpInitial emptydir)
    match rest with
    | [] => .exit 100                                                -- :288
    | host :: rest =>
      match ← .lift (Num.parseport (rest.head?.map (· ++ [0]))) with   -- :289-290, NULL without a second argument
      | none => .exit 100                                            -- :294
      | some port =>
        let timeout ← timeout_parse o.timeoutstr                     -- :296
        let connecttimeout ← timeout_parse o.connecttimeoutstr       -- :297
        return ⟨o, host, port, timeout, connecttimeout⟩

/-! ### tlswrapper-smtp -/

/-- main_tlswrapper_smtp.c:43-49, 154-155 and 345-347: the settings. -/
structure Smtp where
  user : Option Bytes
  timeoutstr : Bytes
  crwtimeoutstr : Bytes
  greylisthostport : Option Bytes
  flaggreyfailclosed : Bool
  jaildir : Bytes
  jailaccount : Option Bytes
  flagverbose : Int
  log_level : Int
  deriving Repr, DecidableEq

/-- main_tlswrapper_smtp.c:856-888. -/
def smtpLetters : Letters Smtp where
  flag c o :=
    if c = c! 'q' then some { o with flagverbose := 0, log_level := Log.set_level 0 }
    else if c = c! 'Q' then some { o with flagverbose := 1, log_level := Log.set_level 1 }
    else if c = c! 'v' then some { o with flagverbose := o.flagverbose + 1, log_level := Log.set_level (o.flagverbose + 1) }
    else if c = c! 'c' then some { o with flaggreyfailclosed := true }
    else if c = c! 'C' then some { o with flaggreyfailclosed := false }
    else none
  arg c :=
    if c = c! 'u' then some (fun x o => .ok { o with user := some x })
    else if c = c! 'T' then some (fun x o => .ok { o with crwtimeoutstr := x })
    else if c = c! 't' then some (fun x o => .ok { o with timeoutstr := x })
    else if c = c! 'g' then some (fun x o => .ok { o with greylisthostport := some x })
    else if c = c! 'J' then some (fun x o => .ok { o with jaildir := x })
    else if c = c! 'j' then some (fun x o => .ok { o with jailaccount := some x })
    else none

/-- main_tlswrapper_smtp.c:43-49, 154-155 and 345-347: the initial values. -/
def smtpInitial (emptydir : Bytes) : Smtp where
  user := none
  timeoutstr := b!"600"
  crwtimeoutstr := b!"15"
  greylisthostport := none
  flaggreyfailclosed := false
  jaildir := emptydir
  jailaccount := none
  flagverbose := 1
  log_level := 1

/-- What tlswrapper-smtp goes on with: the greylist server is the buffer with its host name and its
port (main_tlswrapper_smtp.c:834-955). -/
structure SmtpStarted where
  opts : Smtp
  prog : List Bytes
  timeout : Int
  crwtimeout : Int
  greylist : Option (Bytes × (Byte × Byte))
  deriving Repr, DecidableEq

/-- main_tlswrapper_smtp.c:898-908: `host` and `port` are the buffers before the call. -/
def greylistParse (ip6 : Bytes → Bool) (host port x : Bytes) : Res (Bytes × (Byte × Byte)) := do
  match ← .lift (HostPort.parsehostport ip6 host (some port) (some (x ++ [0]))) with
  | (r, host, port) =>
    if r = 0 then .exit 100                                          -- :902
    else match ← .lift (Num.parseport port) with
      | none => .exit 100                                            -- :907
      | some p => return (host, p)

/-- main_tlswrapper_smtp.c:848-912: `port` is the uninitialised buffer of :898. -/
def smtpStart (ip6 : Bytes → Bool) (emptydir port : Bytes) : List Bytes → Res SmtpStarted
  | [] => .exit 100                                                  -- :848
  | _ :: args => do
    let (o, prog) ← options smtpLetters args (smtpInitial emptydir)
    if prog = [] then .exit 100                                      -- :894
    else
      let timeout ← timeout_parse o.timeoutstr                       -- :895
      let crwtimeout ← timeout_parse o.crwtimeoutstr                 -- :896
      match o.greylisthostport with
      | none => return ⟨o, prog, timeout, crwtimeout, none⟩
      | some x =>
        let g ← greylistParse ip6 (List.replicate 256 0) port x
        return ⟨o, prog, timeout, crwtimeout, some g⟩

end Cmd
