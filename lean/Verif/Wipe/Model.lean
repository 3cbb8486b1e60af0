import Verif.Io
import Verif.Alloc.Model
/-
Model of randombytes.c (the version that reads /dev/urandom) and of what the
programs do with it before they exit: `cleanup` and `die` of main_tlswrapper.c,
main_tlswrapper_tcp.c and main_tlswrapper_smtp.c.
-/
namespace Wipe
open Io

/-- The module's state: `fd` (randombytes.c:17; false: -1), and what the system will
do: outcomes of the calls of open, and the random stream with the outcomes of
reads. `slept` counts calls of sleep. -/
structure Src where
  opened : Bool
  opens : List Bool
  fd : RFd
  slept : Nat
  deriving Repr, DecidableEq

/-- randombytes.c:25-38 `init` (with O_CLOEXEC). `none`: it has not returned. -/
def init (s : Src) : Option Src :=
  if s.opened then some s                                         -- :26
  else go s.opens s
where
  /-- randombytes.c:27-36. -/
  go : List Bool → Src → Option Src
    | [], _ => none
    | true :: o, s => some { s with opened := true, opens := o }  -- :34
    | false :: o, s => go o { s with opens := o, slept := s.slept + 1 }  -- :35

/-- randombytes.c:56-70: `x` is the object that is filled, `at_` the position, `xlen`
what is left. A read that fails and one that returns nothing are alike (:63). -/
def fillLoop : (evs : List RdEv) → (src : Bytes) → (slept : Nat) → (x : Bytes) → (at_ xlen : Nat) →
    Option (Out (Bytes × Bytes × List RdEv × Nat))
  | evs, src, slept, x, _, 0 => some (.ok (x, src, evs, slept))
  | [], _, _, _, _, _ + 1 => none
  | .data m :: evs, src, slept, x, at_, xlen + 1 =>
    let i := if xlen + 1 < 1048576 then xlen + 1 else 1048576     -- :57-60
    let g := got src i m                                          -- :62
    if g.length = 0 then fillLoop evs src (slept + 1) x at_ (xlen + 1)   -- :63-66
    else
      match copyN x at_ g g.length with
      | .ub => some .ub
      | .ok x => fillLoop evs (src.drop g.length) slept x (at_ + g.length) (xlen + 1 - g.length)  -- :68-69
  | _ :: evs, src, slept, x, at_, xlen + 1 => fillLoop evs src (slept + 1) x at_ (xlen + 1)       -- :63-66

/-- randombytes.c:49-74 `randombytes` for the object `x`. -/
def randombytes (s : Src) (x : Bytes) (xlen : Int) : Option (Out (Bytes × Src)) :=
  match init s with                                               -- :54
  | none => none
  | some s =>
    match fillLoop s.fd.evs s.fd.src s.slept x 0 xlen.toNat with
    | none => none
    | some .ub => some .ub
    | some (.ok (x, src, evs, slept)) => some (.ok (x, { s with fd := ⟨src, evs⟩, slept := slept }))

/-! ### The programs -/

/-- The objects with static storage that hold something about a session, in the three
programs and in the modules they use (main_tlswrapper.c:187-205, main_tlswrapper_tcp.c:72-88,
main_tlswrapper_smtp.c:68-78). -/
inductive Var where
  /-- main_tlswrapper.c:37 (contains the TLS engine: keys, records, certificates) -/
  | ctx
  /-- main_tlswrapper.c:88-91 -/
  | cleartext_tochildbuf | cleartext_tochildbuflen | cleartext_tonetbuf | cleartext_tonetbuflen
  /-- main_tlswrapper.c:93-97, main_tlswrapper_tcp.c:57-61, main_tlswrapper_smtp.c:56-60 -/
  | localip | localport | remoteip | remoteport | remoteipstr
  /-- main_tlswrapper_tcp.c:40-43, 53-55 -/
  | inbuf | inbuflen | outbuf | outbuflen | ip | iplen | port
  /-- main_tlswrapper_tcp.c:32-38 -/
  | tcpctx
  /-- main_tlswrapper_smtp.c:231-239, 353 -/
  | smtpin | smtpout | smtpcin | smtpcout | greylistbuf
  /-- log.c:150, 210, 555 -/
  | logidbuf | logbuf | logstatic
  /-- the local array of main_tlswrapper.c:200, main_tlswrapper_tcp.c:85,
  main_tlswrapper_smtp.c:75 -/
  | stack
  deriving Repr, DecidableEq

/-- `sizeof`; `c` is the size of `struct tls_context`. main_tlswrapper.c:87-97, 200;
main_tlswrapper_tcp.c:32-61; main_tlswrapper_smtp.c:231-239, 353; log.c:43 and the
lines cited at `Var`; INET6_ADDRSTRLEN is 46. -/
def sizeOf (c : Nat) : Var → Nat
  | .ctx => c
  | .cleartext_tochildbuf | .cleartext_tonetbuf => 8192
  | .cleartext_tochildbuflen | .cleartext_tonetbuflen => 8
  | .localip | .remoteip => 16
  | .localport | .remoteport | .port => 2
  | .remoteipstr => 46
  | .inbuf | .outbuf => 8192
  | .inbuflen | .outbuflen | .iplen => 8
  | .ip => 16 * 8
  | .tcpctx => 16
  | .smtpin | .smtpcout => 8192
  | .smtpout | .smtpcin => 128
  | .greylistbuf => 256
  | .logidbuf => 68
  | .logbuf => 256
  | .logstatic => 9 * 68
  | .stack => 4096

/-- Contents of the static objects (the same objects).
(the objects cited at `Var`, for instance main_tlswrapper.c:187-205) -/
abbrev Mem := Var → Bytes

/-- `randombytes(v, n)` for each of a list (main_tlswrapper.c:188-197, main_tlswrapper_tcp.c:73-82,
main_tlswrapper_smtp.c:69-72). -/
def wipe : List (Var × Nat) → Mem → Src → Option (Out (Mem × Src))
  | [], m, s => some (.ok (m, s))
  | (v, n) :: l, m, s =>
    match randombytes s (m v) n with
    | none => none
    | some .ub => some .ub
    | some (.ok (x, s)) => wipe l (fun w => if w = v then x else m w) s

/-- main_tlswrapper.c:188-197. -/
def tlswrapperList (c : Nat) : List (Var × Nat) :=
  [(.ctx, sizeOf c .ctx), (.localip, sizeOf c .localip), (.localport, sizeOf c .localport), (.remoteip, sizeOf c .remoteip),
   (.remoteport, sizeOf c .remoteport), (.remoteipstr, sizeOf c .remoteipstr),
   (.cleartext_tochildbuf, sizeOf c .cleartext_tochildbuf), (.cleartext_tochildbuflen, sizeOf c .cleartext_tochildbuflen),
   (.cleartext_tonetbuf, sizeOf c .cleartext_tonetbuf), (.cleartext_tonetbuflen, sizeOf c .cleartext_tonetbuflen)]

/-- main_tlswrapper_tcp.c:73-82. -/
def tcpList : List (Var × Nat) :=
  [(.ip, sizeOf 0 .ip), (.port, sizeOf 0 .port), (.inbuf, sizeOf 0 .inbuf), (.outbuf, sizeOf 0 .outbuf),
   (.localip, sizeOf 0 .localip), (.localport, sizeOf 0 .localport), (.remoteip, sizeOf 0 .remoteip),
   (.remoteport, sizeOf 0 .remoteport), (.remoteipstr, sizeOf 0 .remoteipstr), (.tcpctx, sizeOf 0 .tcpctx)]

/-- main_tlswrapper_smtp.c:69-72. -/
def smtpList : List (Var × Nat) :=
  [(.localip, sizeOf 0 .localip), (.localport, sizeOf 0 .localport), (.remoteip, sizeOf 0 .remoteip),
   (.remoteport, sizeOf 0 .remoteport)]

/-- main_tlswrapper.c:187-203, main_tlswrapper_tcp.c:71-88 (after `resolvehost_close`),
main_tlswrapper_smtp.c:68-78 `cleanup`: the objects, the heap, the stack. -/
def cleanup (l : List (Var × Nat)) (base : Nat) (m : Mem) (heap : Alloc.St) (s : Src) : Option (Out (Mem × Alloc.St × Src)) :=
  match wipe l m s with
  | none => none
  | some .ub => some .ub
  | some (.ok (m, s)) =>
    let heap := (Alloc.freeall base heap).1
    match wipe [(.stack, sizeOf 0 .stack)] m s with
    | none => none
    | some .ub => some .ub
    | some (.ok (m, s)) => some (.ok (m, heap, s))

end Wipe
