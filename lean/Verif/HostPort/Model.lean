import Verif.Num.Model
/-
Model of parsehostport.c. `parseip6_` (parseip.c:24-29, a call of inet_pton for
AF_INET6) is the parameter `ip6`, a predicate on the string contents.
-/
namespace HostPort

/-- parsehostport.h:5-6. -/
def HOSTBYTES : Nat := 256
/-- parsehostport_PORTBYTES (parsehostport.h). -/
def PORTBYTES : Nat := 6

/-- The slices returned by `parsehostport_split_`: offsets and lengths into the
input, and the two flags (parsehostport.c:39-43). -/
structure Split where
  host : Nat
  hostlen : Nat
  port : Nat
  portlen : Nat
  bracketed : Bool
  coloncount : Nat
  deriving Repr, DecidableEq

/-- parsehostport.c:61-64: `for (i = 1; in[i]; ++i)`; `none` is `return 0`,
otherwise the index where the loop stopped. -/
def scanBracket : Bytes → Nat → Out (Option Nat)
  | [], _ => .ub
  | b :: m, i =>
    if b = 0 then .ok (some i)
    else if b = c! '[' then .ok none
    else if b = c! ']' then .ok (some i)
    else scanBracket m (i + 1)

/-- parsehostport.c:79-80: scan the port for ']'; `none` is `return 0`,
otherwise the index of the NUL. -/
def scanPort : Bytes → Nat → Out (Option Nat)
  | [], _ => .ub
  | b :: m, len =>
    if b = 0 then .ok (some len)
    else if b = c! ']' then .ok none
    else scanPort m (len + 1)

/-- parsehostport.c:87-95: count colons; `none` is `return 0`, otherwise
(length, number of colons, index of the last colon). -/
def scanColons : Bytes → (len coloncount lastcolon : Nat) → Out (Option (Nat × Nat × Nat))
  | [], _, _, _ => .ub
  | b :: m, len, cc, lc =>
    if b = 0 then .ok (some (len, cc, lc))
    else if b = c! ']' then .ok none
    else if b = c! ':' then scanColons m (len + 1) (cc + 1) len
    else scanColons m (len + 1) cc lc

/-- parsehostport.c:60-85: the bracketed form. -/
def splitBracketed (inp : Bytes) : Out (Option Split) := do
  match ← scanBracket (inp.drop 1) 1 with
  | none => return none
  | some i =>
    let bi ← rd inp i
    if bi = 0 then return none                                   -- :66
    else if i = 1 then return none                               -- :67
    else
      let b1 ← rd inp (i + 1)
      if b1 = 0 then return some ⟨1, i - 1, i + 1, 0, true, 0⟩   -- :75
      else if b1 ≠ c! ':' then return none                       -- :76
      else
        let b2 ← rd inp (i + 2)
        if b2 = 0 then return none                               -- :77
        else
          match ← scanPort (inp.drop (i + 2)) (i + 2) with       -- :79-80
          | none => return none
          | some len => return some ⟨1, i - 1, i + 2, len - i - 2, true, 0⟩ -- :82-84

/-- parsehostport.c:87-121: the forms without brackets. -/
def splitPlain (inp : Bytes) : Out (Option Split) := do
  match ← scanColons inp 0 0 0 with
  | none => return none
  | some (len, cc, lastcolon) =>
    if cc = 0 then return some ⟨0, len, len, 0, false, cc⟩       -- :98-104
    else if cc = 1 then
      if lastcolon = 0 then return none                          -- :107
      else
        let b ← rd inp (lastcolon + 1)
        if b = 0 then return none                                -- :108
        else return some ⟨0, lastcolon, lastcolon + 1, len - lastcolon - 1, false, cc⟩ -- :110-114
    else return some ⟨0, len, len, 0, false, cc⟩                 -- :117-121

/-- parsehostport.c:39-122 `parsehostport_split_` (non-NULL arguments). -/
def split (inp : Bytes) : Out (Option Split) := do
  let b0 ← rd inp 0
  if b0 = 0 then return none                                     -- :58
  else if b0 = c! '[' then splitBracketed inp
  else splitPlain inp

/-- parsehostport.c:178-188: length checks, copies and validation of the
slices; `none` is `goto err`, otherwise the contents of tmphost and tmpport. -/
def fill (ip6 : Bytes → Bool) (inp : Bytes) (sp : Split) : Out (Option (Bytes × Bytes)) := do
  if sp.hostlen ≥ HOSTBYTES then return none                     -- :178
  else if sp.portlen ≥ PORTBYTES then return none                -- :179
  else
    let tmphost ← copyN (List.replicate HOSTBYTES 0) 0 (inp.drop sp.host) sp.hostlen -- :181
    let tmphost ← wr tmphost sp.hostlen 0                        -- :182
    let h ← cstrOf tmphost
    if (sp.bracketed ∨ sp.coloncount > 1) ∧ ip6 h = false then return none -- :184
    else
      let tmpport ← copyN (List.replicate PORTBYTES 0) 0 (inp.drop sp.port) sp.portlen -- :186
      let tmpport ← wr tmpport sp.portlen 0                      -- :187
      let p ← (if sp.portlen ≠ 0 then do
          let r ← Num.parseport_ (some tmpport)
          pure r.isNone
        else pure false)                                         -- :188
      if p then return none
      else return some (tmphost, tmpport)

/-- parsehostport.c:203-205: the error exit. Only the first byte of each output
is written. -/
def errExit (outhost : Bytes) (outport : Option Bytes) : Out (Nat × Bytes × Option Bytes) := do
  let oh ← wr outhost 0 0
  match outport with
  | none => return (0, oh, none)
  | some op =>
    let op ← wr op 0 0
    return (0, oh, some op)

/-- parsehostport.c:152-209 `parsehostport` with a non-NULL `outhost`.
`outport = none` and `hostport = none` are NULL pointers. Returns the C return
value and both output buffers. errno and logging are not modelled. -/
def parsehostport (ip6 : Bytes → Bool) (outhost : Bytes) (outport : Option Bytes)
    (hostport : Option Bytes) : Out (Nat × Bytes × Option Bytes) :=
  match hostport with
  | none => errExit outhost outport                              -- :172
  | some inp => do
    match ← split inp with                                       -- :173
    | none => errExit outhost outport
    | some sp =>
      let sp := if outport.isNone then { sp with portlen := 0 } else sp -- :177
      match ← fill ip6 inp sp with
      | none => errExit outhost outport
      | some (tmphost, tmpport) =>
        let oh ← copyN outhost 0 tmphost HOSTBYTES               -- :191
        match outport with
        | none => return (1, oh, none)
        | some op =>
          let op ← copyN op 0 tmpport PORTBYTES                  -- :193
          return (1, oh, some op)

end HostPort
