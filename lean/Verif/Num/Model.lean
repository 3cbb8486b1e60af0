import Verif.Base
/-
Model of parsenum.c, parseport.c and porttostr.c.
-/
namespace Num

/-- parsenum.h: parsenum_MAX = LLONG_MAX (2^63-1), as an unsigned value. -/
def parsenumMAXu : Nat := 2 ^ 63 - 1

/-- parsenum.c:59-66, the digit loop. `mem` is the memory from `str + i` on,
`ret` the accumulator, `i` the loop index. `none` is `goto err`; otherwise the
final accumulator and index. All arithmetic is `unsigned long long`. -/
def digitLoop : (mem : Bytes) → (ret i : Nat) → Out (Option (Nat × Nat))
  | [], _, _ => .ub
  | b :: mem, ret, i =>
    if b = 0 then .ok (some (ret, i))
    else
      let c := toU64 (schar b - 48)                 -- :60
      if c > 9 then .ok none                        -- :61
      else if ret > (u64max - c) / 10 then .ok none -- :64
      else digitLoop mem ((10 * ret + c) % 2 ^ 64) (i + 1) -- :65

/-- parsenum.c:68-84 after the digit loop: "at least one digit", sign and
signed-overflow checks. `none` is `goto err`. -/
def applySign (flagsign : Bool) : Option (Nat × Nat) → Option Int
  | none => none
  | some (ret, i) =>
    if i = 0 then none                               -- :69
    else if flagsign then
      if ret > parsenumMAXu + 1 then none            -- :73
      else if ret = parsenumMAXu + 1 then some llmin -- :74-77
      else some (-(ret : Int))                       -- :78
    else if ret > parsenumMAXu then none             -- :81
    else some (ret : Int)                            -- :83

/-- parsenum.c:56 leading-zero test: `str[0] == '0' && str[1] != 0`. -/
def leadingZero (str : Bytes) : Out Bool := do
  let b0 ← rd str 0
  if b0 = c! '0' then
    let b1 ← rd str 1
    return decide (b1 ≠ 0)
  else return false

/-- parsenum.c:55-84 after the sign was consumed. `none` is `goto err`. -/
def magnitude (flagsign : Bool) (str : Bytes) : Out (Option Int) := do
  let lead ← leadingZero str                         -- :56
  if lead then return none
  else
    let r ← digitLoop str 0 0                        -- :59-66
    return applySign flagsign r

/-- parsenum.c:37-84: sign handling in front of `magnitude`. `none` is
`goto err`. -/
def signedNumber (str : Bytes) : Out (Option Int) := do
  let b0 ← rd str 0
  if b0 = 0 then return none                                    -- :39-41
  else if b0 = c! '+' then magnitude false (str.drop 1)          -- :42-45
  else if b0 = c! '-' then magnitude true (str.drop 1)           -- :46-50
  else magnitude false str                                      -- :51-52

/-- parsenum.c:86-94: range check and result. The pair is the C return value
and the value stored in `*num`. -/
def inRange (min max : Int) : Option Int → Nat × Int
  | none => (0, 0)                                   -- :91-94
  | some v =>
    if v < min then (0, 0)                           -- :87
    else if v > max then (0, 0)                      -- :88
    else (1, v)                                      -- :89

/-- parsenum.c:29-95 `parsenum_` with a non-NULL `num`; `str = none` is a NULL
pointer. Returns the C return value and the value stored in `*num`. -/
def parsenum_ (min max : Int) (str : Option Bytes) : Out (Nat × Int) :=
  match str with
  | none => .ok (0, 0)                               -- :35
  | some str => do
    let r ← signedNumber str
    return inRange min max r

/-- parsenum.c:113-135 `parsenum`: logging wrapper. The result is
(return value, value in `*num`). Logging and errno are not modelled. -/
def parsenum (min max : Int) (str : Option Bytes) : Out (Nat × Int) :=
  match str with
  | none => .ok (0, 0)                               -- :120,130
  | some s => do
    let r ← parsenum_ min max (some s)
    if r.1 = 0 then return (0, 0)                    -- :121,130
    else return (1, r.2)

/-- parseport.c:44-46: store `num` as two big-endian bytes. -/
def portBytes (num : Int) : Byte × Byte :=
  (UInt8.ofNat (num.toNat / 256), UInt8.ofNat num.toNat)

/-- parseport.c:31-48 `parseport_`, non-NULL output. `some (hi, lo)` is success
with the two stored bytes; `none` is a return value of 0 (output untouched). -/
def parseport_ (str : Option Bytes) : Out (Option (Byte × Byte)) :=
  match str with
  | none => .ok none                                           -- :36
  | some s => do
    let b0 ← rd s 0
    if b0 = 0 ∨ b0 = c! '+' ∨ b0 = c! '-' then return none       -- :39
    else
      let r ← parsenum_ 0 65535 (some s)                        -- :42
      if r.1 = 0 then return none
      else return some (portBytes r.2)                          -- :45-47

/-- parseport.c:67-88 `parseport` (errno and logging not modelled). -/
def parseport (str : Option Bytes) : Out (Option (Byte × Byte)) :=
  match str with
  | none => .ok none                                           -- :74
  | some s => parseport_ (some s)                               -- :75

/-- porttostr.h: PORTTOSTR_LEN. -/
def PORTTOSTR_LEN : Nat := 6

/-- porttostr.c:39-42 / 48-51: the do-while loops over `num /= 10`. Counting
loop: number of iterations. -/
def countLoop (num : Nat) : Nat :=
  if num / 10 = 0 then 1 else 1 + countLoop (num / 10)
termination_by num
decreasing_by omega

/-- porttostr.c:48-51: the writing loop `*--strbuf = '0' + num % 10`, with
`strbuf` at index `pos` of the 6-byte buffer `buf`. Writing before the start or
past the end of the buffer is undefined behaviour. -/
def writeLoop (buf : Bytes) (pos : Nat) (num : Nat) : Out (Bytes × Nat) :=
  match pos with
  | 0 => .ub
  | pos + 1 =>
    if pos < buf.length then
      let buf := buf.set pos (UInt8.ofNat (48 + num % 10))
      if num / 10 = 0 then .ok (buf, pos) else writeLoop buf pos (num / 10)
    else .ub
termination_by pos

/-- porttostr.c:53: zero fill from `len` to PORTTOSTR_LEN relative to `pos`. -/
def fillLoop (buf : Bytes) (pos len : Nat) : Out Bytes :=
  if len < PORTTOSTR_LEN then
    if pos + len < buf.length then fillLoop (buf.set (pos + len) 0) pos (len + 1)
    else .ub
  else .ok buf
termination_by PORTTOSTR_LEN - len

/-- porttostr.c:28-55 `porttostr` on a caller-supplied buffer `buf` (at least
PORTTOSTR_LEN bytes, arbitrary contents). The returned pointer is an index
into the buffer. -/
def porttostr (buf : Bytes) (hi lo : Byte) : Out (Bytes × Nat) := do
  let num := hi.toNat * 256 + lo.toNat
  let len := countLoop num
  let (buf, pos) ← writeLoop buf len num
  let buf ← fillLoop buf pos len
  return (buf, pos)

end Num
